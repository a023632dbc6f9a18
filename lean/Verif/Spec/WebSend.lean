import Verif.Model.WebSend
/-
What sending a response is measured against.
-/
namespace Verif.Spec.WebSend
open Verif Verif.WebSend
open Verif.TlsRelay (Wr)

/-- The whole response: header, then the file if it is announced as not empty, or the payload. -/
def whole (hdr : List (List UInt8)) : Body → List UInt8
  | .file f n => hdr.flatten ++ (if n > 0 then f else [])
  | .api p => hdr.flatten ++ p

/-- The announced size of a file is its size. -/
def Sized : Body → Prop
  | .file f n => n = f.length
  | .api _ => True

/-- `epoll` reports only what is in the interest. -/
def Reportable (w : W) : Ev → Prop
  | .r => w.t.opt.r = true
  | .w => w.t.opt.w = true
  | .timeout => True

/-- The events can be reported one after the other. -/
def Possible (w : W) : List Ev → Prop
  | [] => True
  | e :: es => Reportable w e ∧ ∀ w', step w e = some w' → Possible w' es

/-- Something is registered that continues the response: writability will be reported and continues it, or readability will be reported and continues it. -/
def Continues (w : W) : Prop :=
  (w.t.opt.w = true ∧ w.wW = true ∧ ∃ k, w.t.wcb = some (.app k) ∧ 1 ≤ k ∧ k ≤ 3) ∨
  (w.t.opt.r = true ∧ w.wR = true ∧ w.t.rcb = some .wr ∧ ∃ k, w.t.wcb = some (.app k) ∧ 1 ≤ k ∧ k ≤ 3)

/-- How many of the results are sent bytes. -/
def sents : List Wr → Nat
  | [] => 0
  | .sent _ :: ds => sents ds + 1
  | _ :: ds => sents ds

/-- How often the connection has to wait. -/
def waits : List Wr → Nat
  | [] => 0
  | .wait _ :: ds => waits ds + 1
  | _ :: ds => waits ds

/-- A connection that never fails and takes a buffer whole or not at all, as TLS does; 16344 is the size of the largest buffer for a part of a file. -/
def WholeOrWait (ds : List Wr) : Prop := ∀ x ∈ ds, (∃ r, x = .wait r) ∨ ∃ n, x = .sent n ∧ 16344 ≤ n

end Verif.Spec.WebSend
