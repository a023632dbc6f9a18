import Verif.Model.TlsRelay
import Verif.Model.Webser
/-
Sending a response of the web server from the event loop, on a plain connection and on one with TLS: src/app/webser.c:82-260, 298-338 with src/common/net_send.c:30-78 and
src/common/ssl.c:228-293. What the response consists of is the subject of `Verif.Web`; here: which event continues a response that had to wait.
-/
namespace Verif.WebSend
open Verif
open Verif.TlsRelay (Wr SendRes)

/-- What follows the header: a file (`webc->fsize` is its announced size) or the payload of an API handler. See src/app/webser.c:247-249, 302-305, 359-379. -/
inductive Body where
  | file (content : List UInt8) (fsize : Int)
  | api (payload : List UInt8)
deriving Repr, DecidableEq

/-- The result of `recv(c->fd, buf, 1, MSG_PEEK)` (src/app/webser.c:91-105). -/
inductive Peek where
  | again
  | byte
  | closed
deriving Repr, DecidableEq

/-- How a response ends: all was sent, the connection was closed after an error, the connection was closed by its timer. See src/app/webser.c:82-260. -/
inductive Fin where
  | done
  | closed
  | expired
deriving Repr, DecidableEq

/-- A connection while its response is sent: whether it uses TLS; interest and callbacks (for a plain connection only `opt`, `rcb`, `wcb` are used); whether the next
readability and writability will be reported if it is in the interest; unsent part of the buffers of the chain being sent; the body; the state of the file transfer;
whether memory for it is available; results of `read`, of `c->send` and of the peeks (environment); what the connection took; the end. Callbacks: `.app 0` is
`webser_try_read`, `.app 1` `webser_rsp_hdr_send`, `.app 2` `webser_rsp_payload_send_ff`, `.app 3` `webser_rsp_payload_send_api`, other numbers are callbacks of other
phases. See src/app/webser.h:20-36, src/common/event.h:20-33. -/
structure W where
  tls : Bool
  t : Ssl.S
  wR : Bool
  wW : Bool
  chain : List (List UInt8)
  body : Body
  ff : Web.Ff
  mem : Bool
  rd : List Nat
  dst : List Wr
  peek : List Peek
  out : List UInt8
  fin : Option Fin
deriving Repr, DecidableEq

/-- New callbacks and interest; a changed interest makes `epoll` look at the connection anew (src/common/event.c:40-55). -/
def mod (w : W) (s : Ssl.S) : W := if s.opt = w.t.opt then { w with t := s } else { w with t := s, wR := s.opt.r, wW := s.opt.w }

/-- What a call of `c->send` with the given result does to callbacks and interest: `ssl_write` (src/common/ssl.c:230-268), or `sends`, which touches neither
(src/common/net_send.c:30-51). -/
def onWrite (w : W) (x : Ssl.Res) : W :=
  if w.tls then
    match x with
    | .wantR => { mod w (Ssl.write w.t .wantR) with wR := true }
    | .wantW => { mod w (Ssl.write w.t .wantW) with wW := true }
    | x => mod w (Ssl.write w.t x)
  else
    match x with
    | .wantR => { w with wW := true }
    | .wantW => { w with wW := true }
    | _ => w

@[simp] theorem onWrite_dst (w : W) (x : Ssl.Res) : (onWrite w x).dst = w.dst := by
  unfold onWrite mod; split <;> (split <;> (try split)) <;> rfl

/-- `send_chains` (src/common/net_send.c:53-78) and `ssl_write_chain` (src/common/ssl.c:270-293) on the chain being sent. After the end of the observed results
the connection would block. -/
def chainLoop (w : W) : W × SendRes :=
  match Net.firstUnsent w.chain with
  | none => (w, .drained)
  | some (p, x, q) =>
    match _h : w.dst with
    | [] => (onWrite w .wantW, .again)
    | .wait r :: ds => (onWrite { w with dst := ds } (if r then .wantR else .wantW), .again)
    | .fail :: _ => (onWrite w .err, .fail)
    | .sent n :: ds => chainLoop (onWrite { w with dst := ds, chain := p ++ x.drop n :: q, out := w.out ++ x.take n } .ok)
termination_by w.dst.length
decreasing_by simp [_h]

/-- The send of one iteration of `webser_rsp_payload_send_ff` (src/app/webser.c:172-185). -/
def ffSend (w : W) : W × SendRes :=
  if w.ff.buf = [] then (w, .drained)
  else
    match w.dst with
    | [] => (onWrite w .wantW, .again)
    | .wait r :: ds => (onWrite { w with dst := ds } (if r then .wantR else .wantW), .again)
    | .fail :: _ => (onWrite w .err, .fail)
    | .sent n :: ds =>
      (onWrite { w with
        dst := ds
        ff := { w.ff with buf := w.ff.buf.drop n, fsend := w.ff.fsend + min n w.ff.buf.length }
        out := w.out ++ w.ff.buf.take n } .ok, .drained)

theorem onWrite_keep (w : W) (x : Ssl.Res) : (onWrite w x).rd = w.rd ∧ (onWrite w x).ff = w.ff ∧ (onWrite w x).chain = w.chain ∧ (onWrite w x).out = w.out ∧
    (onWrite w x).body = w.body ∧ (onWrite w x).fin = w.fin ∧ (onWrite w x).mem = w.mem ∧ (onWrite w x).tls = w.tls ∧ (onWrite w x).peek = w.peek := by
  unfold onWrite mod; split <;> (split <;> (try split)) <;> simp

theorem ffSend_size (w w1 : W) (h : ffSend w = (w1, .drained)) :
    w1.rd = w.rd ∧ w1.dst.length ≤ w.dst.length ∧ (w.ff.buf ≠ [] → w1.dst.length < w.dst.length) ∧ (w.ff.buf = [] → w1 = w) := by
  unfold ffSend at h
  split at h
  · rename_i hb; cases h; simp [hb]
  · rename_i hb
    split at h <;> cases h
    rename_i n ds hd
    refine ⟨(onWrite_keep _ _).1, ?_, fun _ => ?_, fun h => absurd h hb⟩ <;> simp [hd]

/-- The loop of `webser_rsp_payload_send_ff` (src/app/webser.c:171-201) in one invocation; the rest of an iteration is `Web.ffRead`. -/
def ffLoop (file : List UInt8) (fsize : Int) (w : W) : W × SendRes :=
  match _h : ffSend w with
  | (w1, .again) => (w1, .again)
  | (w1, .fail) => (w1, .fail)
  | (w1, .drained) =>
    match _h2 : Web.ffRead file fsize w1.ff [] w1.rd with
    | .inl .done => (w1, .drained)
    | .inl _ => (w1, .fail)
    | .inr o => ffLoop file fsize { w1 with ff := o.1, rd := o.2.2 }
termination_by w.dst.length + w.rd.length
decreasing_by
  have h1 := ffSend_size w w1 _h
  have h2 := Web.ffRead_le _h2
  by_cases hb : w.ff.buf = []
  · have := h2.2.2 (by rw [h1.2.2.2 hb]; exact hb)
    rw [h1.1] at this; omega
  · have := h1.2.2.1 hb
    rw [h1.1] at h2; omega

/-- The end of a response: the connection is kept for the next request or closed (src/app/webser.c:159-164, 204-209, 254-259), closed after an error, or by its timer. -/
def finish (w : W) (f : Fin) : W := { w with fin := some f }

/-- `webser_rsp_payload_send_ff` (src/app/webser.c:167-210). -/
def ffCall (file : List UInt8) (fsize : Int) (w : W) : W :=
  match ffLoop file fsize w with
  | (w1, .again) => w1
  | (w1, .fail) => finish w1 .closed
  | (w1, .drained) => finish w1 .done

/-- `webser_rsp_payload_send_api` (src/app/webser.c:142-165). -/
def apiCall (w : W) : W :=
  match chainLoop w with
  | (w1, .again) => w1
  | (w1, .fail) => finish w1 .closed
  | (w1, .drained) => finish w1 .done

/-- `webser_rsp_hdr_send` (src/app/webser.c:231-260) and `webser_rsp_payload_send` (212-229), which it calls. -/
def hdrCall (w : W) : W :=
  match chainLoop w with
  | (w1, .again) => w1
  | (w1, .fail) => finish w1 .closed
  | (w1, .drained) =>
    match w1.body with
    | .file f n =>
      if n > 0 then
        if w1.mem then ffCall f n { w1 with t := { w1.t with wcb := some (.app 2) } } else finish w1 .closed
      else finish w1 .done
    | .api p => if p = [] then finish w1 .done else apiCall { w1 with chain := [p], t := { w1.t with wcb := some (.app 3) } }

/-- A call of `write_cb` by the event loop or by `ssl_write_cb` (src/common/event.c:224-228, src/common/ssl.c:228). `none`: NULL or a callback of another phase
is called. -/
def callW (w : W) : Option W :=
  match w.t.wcb, w.body with
  | some (.app 1), _ => some (hdrCall w)
  | some (.app 2), .file f n => some (ffCall f n w)
  | some (.app 3), _ => some (apiCall w)
  | _, _ => none

/-- `webser_try_read` (src/app/webser.c:88-106). -/
def tryRead (w : W) : W :=
  match w.peek with
  | [] => w
  | .closed :: ps => finish { w with peek := ps } .closed
  | _ :: ps => { w with peek := ps }

/-- Events of the connection: readable, writable, its timer expires (`web_exp`, src/app/webser.c:82-86). -/
inductive Ev where
  | r
  | w
  | timeout
deriving Repr, DecidableEq

/-- One dispatch of the event loop (src/common/event.c:204-232). -/
def step (w : W) (e : Ev) : Option W :=
  match w.fin with
  | some _ => some w
  | none =>
    match e with
    | .timeout => some (finish w .expired)
    | .r =>
      match w.t.rcb with
      | none => some { w with wR := false }
      | some .wr => callW { w with wR := false }
      | some (.app 0) => some (tryRead { w with wR := false })
      | _ => none
    | .w =>
      match w.t.wcb with
      | none => some { w with wW := false }
      | _ => callW { w with wW := false }

/-- A connection after a sequence of events. See src/common/event.c:204-232. -/
def run (w : W) : List Ev → Option W
  | [] => some w
  | e :: es => (step w e).bind fun w' => run w' es

/-- The end of `webser_rsp` (src/app/webser.c:335-337) with the header chain `hdr`; `t0`: interest and callbacks before. -/
def start (tls : Bool) (t0 : Ssl.S) (hdr : List (List UInt8)) (body : Body) (mem : Bool) (rd : List Nat) (dst : List Wr) (peek : List Peek) : W :=
  hdrCall {
    tls
    t := { t0 with rcb := some (.app 0), wcb := some (.app 1) }
    wR := true, wW := true
    chain := hdr, body, ff := {}, mem, rd, dst, peek, out := [], fin := none }

/-- A plain connection: its interest was set to reading when it was accepted (src/common/net.c:167-168) and the web server never changes it. -/
def plainT : Ssl.S := ⟨⟨true, false⟩, none, none, ⟨false, false⟩, none, none⟩

end Verif.WebSend
