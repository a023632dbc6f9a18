/-
What is expected of the objects of a session: nothing released is used, nothing is released twice, nothing is forgotten.
-/
import Verif.Model.Session

namespace Verif.Session

/-- No function is running: the program waits for events. -/
def Waiting (w : W) : Prop := w.call = none

/-- Some object of the session is allocated. -/
def SomethingLive (w : W) : Prop :=
  w.down.life = .live ∨ w.up.life = .live ∨ w.dcon.life = .live ∨ w.ses = .live ∨ w.adata = .live ∨ w.dns = .live

/-- Some timer is armed on an allocated connection. -/
def TimerArmed (w : W) : Prop := ∃ i, (w.con i).life = .live ∧ (w.con i).tm ≠ none

/-- The situations in which the code goes wrong (see the counterexamples): the resolver cannot be set up; the client's socket reports an error
while its name is being resolved; in the client program, a TLS handshake upstream that has to wait more than once times out. -/
def Unlucky (w : W) (e : Ev) : Prop :=
  match w.call, e with
  | some (.cupAddr, _), .out o _ => o = .mem1 ∨ o = .mem2 ∨ o = .mem3
  | some (.tryRead, _), .out o _ => o = .err ∧ w.dns = .live
  | some (.sslExp, i), .out _ _ => i = .up ∧ w.client = true ∧ w.up.tls = .fresh
  | _, _ => False

/-- The states of a session of the server (`false`) or of the client (`true`) program, as long as none of the situations above occurs. -/
inductive Reach (client : Bool) : W → Prop where
  | start : Reach client (start client)
  | step {w w' : W} {e : Ev} : Reach client w → ¬ Unlucky w e → step w e = .ok w' → Reach client w'

/-- `connect` fails at once, without the connection becoming pending. -/
def ConnectFails (w : W) (e : Ev) : Prop :=
  match w.call, e with
  | some (.connect, _), .out o _ => o = .err
  | some (.cAccept, _), .out o _ => o = .err ∨ o = .ok2
  | _, _ => False

/-- The states reached without an immediate failure of `connect`. -/
inductive ReachC (client : Bool) : W → Prop where
  | start : ReachC client (start client)
  | step {w w' : W} {e : Ev} : ReachC client w → ¬ Unlucky w e → ¬ ConnectFails w e → step w e = .ok w' → ReachC client w'

/-- From `w`, `n` timers expire one after the other, with any results of the system calls (but not the situations above), and nothing else
happens. -/
inductive Expiries : W → Nat → W → Prop where
  | zero {w : W} : Expiries w 0 w
  | succ {w w1 w2 w3 : W} {n : Nat} {i : Id} {o : Out} {sd : Sd} : (w.con i).tm ≠ none → step w (.timer i) = .ok w1 →
      ¬ Unlucky w1 (.out o sd) → step w1 (.out o sd) = .ok w2 → Expiries w2 n w3 → Expiries w (n + 1) w3

/-- The course of a session when everything succeeds: which function follows on which connection. -/
def follows : Cb → Option (Cb × Id)
  | .auth => some (.p1req, .down)
  | .p1req => some (.p1rsp, .down)
  | .p1rsp => some (.p2req, .down)
  | .p2req => some (.cupAddr, .down)
  | .cupAddr => some (.dnsPacket, .dns)
  | .dnsPacket => some (.dnsSend, .dns)
  | .dnsSend => some (.dnsRecv, .dns)
  | .dnsRecv => some (.connect, .up)
  | .connect => some (.connectChk, .up)
  | .connectChk => some (.p2rsp, .down)
  | .p2rsp => some (.proc, .down)
  | .proc => some (.recv, .down)
  | .recv => some (.send, .up)
  | .rrecv => some (.rsend, .down)
  | .cAccept => some (.cChk, .up)
  | .cChk => some (.cSsl, .up)
  | .cBuild => some (.cAuthSend, .up)
  | .cAuthSend => some (.proc, .down)
  | _ => none

/-- The functions before there is an upstream connection. -/
def early : Cb → Bool
  | .auth | .p1req | .p1rsp | .p2req | .cupAddr => true
  | _ => false

/-- The functions that release both connections when their system call fails. -/
def late : Cb → Bool
  | .tryRead | .dnsSend | .dnsRecv | .connect | .connectChk | .p2rsp | .recv | .send | .rrecv | .rsend | .cAccept | .cRecv | .cChk | .cAuthSend => true
  | _ => false

end Verif.Session
