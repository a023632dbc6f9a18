import Verif.Model.WebAccept
import Verif.Spec.WebConn
/-
What a connection on the TLS port is measured against before it is handed over.
-/
namespace Verif.Spec.WebAccept
open Verif Verif.WebAccept

/-- `epoll` reports only what is in the interest. -/
def Reportable (a : A) (e : WebConn.Ev) : Prop :=
  match a with
  | .web c => Spec.WebConn.Reportable c e
  | .pre p => match e with
    | .r => p.t.opt.r = true
    | .w => p.t.opt.w = true
    | _ => True
  | _ => True

/-- The events can happen one after the other. -/
def Possible (g : Cfg) (a : A) : List WebConn.Ev → Prop
  | [] => True
  | e :: es => Reportable a e ∧ ∀ a', step g a e = some a' → Possible g a' es

/-- Something is registered that continues what the connection is doing. For the handshake: a callback that calls `ssl_handshake` again. -/
def Continues (a : A) : Prop :=
  match a with
  | .web c => Spec.WebConn.Continues c
  | .pre p => match p.ph with
    | .shake => p.t.opt.r = true ∧ (p.t.rcb = some (.app 10) ∨ p.t.rcb = some .hs)
    | .route _ => p.t.rcb = some (.app 21) ∧ (p.t.opt.r = true ∨ (p.t.opt.w = true ∧ p.t.wcb = some .rd))
  | _ => True

/-- The bytes of records. -/
def bytes (l : List (UInt8 × List UInt8)) : List UInt8 := l.flatMap fun r => r.1 :: r.2

/-- How often the handshake has to wait. -/
def waits : List Ssl.Res → Nat
  | .wantR :: l => waits l + 1
  | .wantW :: l => waits l + 1
  | _ => 0

/-- The event a wait is for. -/
def wakes : Ssl.Res → WebConn.Ev
  | .wantW => .w
  | _ => .r

end Verif.Spec.WebAccept
