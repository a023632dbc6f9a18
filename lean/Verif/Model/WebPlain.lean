import Verif.Model.WebConn
/-
A connection of the web server without TLS from `webser_accept_cb` on: requests are read, answered, and the connection is kept for the next request or closed
(src/app/webser.c:82-133, 231-260, 298-463, 550-556, src/http/http_req.c), on top of src/common/net_send.c:3-51. The parts are those of `Model/HttpReq`, `Model/HttpBody`,
`Model/Webser`, `Model/WebRsp` and `Model/WebSend`, put together as in `Model/WebConn`; what differs is what a receive call returns, what it does when it gets no room, and
which events are reported.
-/
namespace Verif.WebPlain
open Verif
open Verif.WebConn (Env Ps room answer left size)

/-- Why nothing more happens on the connection: as in `WebConn.Why`; `abort`: a receive call gets no room, and `sassert` in `recvs` ends the process. See
src/common/net_send.c:5, src/app/webser.c:82-86, 159-164, 391-436. -/
inductive Why where
  | done
  | closed
  | expired
  | crash
  | spin
  | abort
deriving Repr, DecidableEq

/-- Phases: a request is read; a response is being sent and whether the connection is kept after it; the end. See src/app/webser.c:231-260, 417-463. -/
inductive Ph where
  | req (ps : Ps)
  | rsp (w : WebSend.W) (keep : Bool)
  | gone (why : Why)

/-- A connection: number of the request, interest and callbacks (in `w.t` while a response is sent), the pieces that have arrived and were not received, whether the client has ended
its direction, how many further pieces the next receive calls find (environment), bytes of the former responses that were sent, the phase. The callbacks are those of
`WebConn.C`. See src/app/webser.h:20-36. -/
structure C where
  i : Nat
  t : Ssl.S
  sock : List (UInt8 × List UInt8)
  fin : Bool
  rx : List Nat
  out : List UInt8
  ph : Ph

/-- All bytes that were sent. See src/app/webser.c:142-260. -/
def sent (c : C) : List UInt8 :=
  match c.ph with
  | .rsp w _ => c.out ++ w.out
  | _ => c.out

/-- What a receive call finds when `j` pieces have arrived behind the first one: their bytes in one. See src/common/net_send.c:3-28. -/
def joined (j : Nat) (r : UInt8 × List UInt8) (rest : List (UInt8 × List UInt8)) : UInt8 × List UInt8 :=
  (r.1, r.2 ++ (rest.take j).flatMap fun x => x.1 :: x.2)

theorem size_joined (j : Nat) (r : UInt8 × List UInt8) (rest : List (UInt8 × List UInt8)) : size (joined j r rest :: rest.drop j) = size (r :: rest) := by
  induction j generalizing rest with
  | zero => simp [joined]
  | succ j ih =>
    cases rest with
    | nil => simp [joined]
    | cons x rest =>
      have := ih rest
      simp only [size, joined, List.take_succ_cons, List.flatMap_cons, List.drop_succ_cons, List.length_append, List.length_cons] at this ⊢
      omega

/-- Whether reading the bytes `b :: bs` leads to a receive call with no room (src/http/http_req.c:43, 212; `sassert(bufn > 0)`, src/common/net_send.c:5). -/
def aborts (k : Nat) (ps : Ps) (b : UInt8) (bs : List UInt8) : Bool :=
  match ps with
  | .line => match Http.head k {} [] 0 [.data b bs] with | .aborted => true | _ => false
  | .hdrs r buf pos => match Http.loop Http.hdrByte k r buf pos [.data b bs] with | .aborted => true | _ => false
  | .pay _ _ _ _ => false

/-- `webser_start` up to the first receive call (src/app/webser.c:438-463), for request `i`; the allocations succeed (see C84). Bytes that were received behind the former request
and not used are lost (see C56). -/
def begin (c : C) (i : Nat) (t : Ssl.S) : C := { c with i, t := { t with rcb := some (.app 20), wcb := none }, ph := .req .line }

/-- `webser_req_proc` in one invocation, and what it calls (src/app/webser.c:391-463): the request is read, the response is started, and after a response that was sent at once
the next request is read. A receive call without unread bytes has to wait, or finds the end; otherwise it returns the first piece and those of the following that have
arrived by then, as far as there is room. -/
def proc (k : Nat) (home index : List UInt8) (E : Nat → Env) (c : C) (ps : Ps) : C :=
  match _hs : c.sock with
  | [] => if c.fin then { c with ph := .gone .closed } else { c with ph := .req ps }
  | r :: rest =>
    if _hr : room ps = 0 then { c with ph := .gone .abort }
    else
      let j := c.rx.headD rest.length
      let g := joined j r rest
      let sock := left (room ps) g (rest.drop j)
      let rx := c.rx.drop 1
      if aborts k ps g.1 (g.2.take (room ps - 1)) then { c with sock, rx, ph := .gone .abort }
      else
        match WebConn.feed k ps g.1 (g.2.take (room ps - 1)) with
        | .more ps' => proc k home index E { c with sock, rx } ps'
        | .stop => { c with sock, rx, ph := .gone .closed }
        | .spin => { c with sock, rx, ph := .gone .spin }
        | .req q =>
          match answer home index (E c.i) q with
          | .close => { c with sock, rx, ph := .gone .closed }
          | .crash => { c with sock, rx, ph := .gone .crash }
          | .rsp hdr body =>
            let w := WebSend.start false c.t hdr body (E c.i).mem (E c.i).rd (E c.i).dst []
            match w.fin with
            | none => { c with sock, rx, ph := .rsp w q.keep }
            | some .done =>
              if q.keep then proc k home index E (begin { c with sock, rx, out := c.out ++ w.out } (c.i + 1) w.t) .line
              else { c with sock, rx, out := c.out ++ w.out, ph := .gone .done }
            | some .closed => { c with sock, rx, out := c.out ++ w.out, ph := .gone .closed }
            | some .expired => { c with sock, rx, out := c.out ++ w.out, ph := .gone .expired }
termination_by size c.sock
decreasing_by
  all_goals
    simp only [begin, _hs]
    exact Nat.lt_of_lt_of_eq (WebConn.left_lt _ _ _ _hr) (size_joined _ _ _)

/-- After an event during a response (src/app/webser.c:108-133, 142-260): it goes on, or it is over. -/
def after (k : Nat) (home index : List UInt8) (E : Nat → Env) (c : C) (w : WebSend.W) (keep : Bool) : C :=
  match w.fin with
  | none => { c with ph := .rsp w keep }
  | some .done =>
    if keep then proc k home index E (begin { c with out := c.out ++ w.out } (c.i + 1) w.t) .line
    else { c with out := c.out ++ w.out, ph := .gone .done }
  | some .closed => { c with out := c.out ++ w.out, ph := .gone .closed }
  | some .expired => { c with out := c.out ++ w.out, ph := .gone .expired }

/-- What happens: a piece arrives; the client ends its direction; an event of the connection is dispatched: readable, writable, its timer. See
src/common/event.c:204-232. -/
inductive Ev where
  | arrive (b : UInt8) (bs : List UInt8)
  | close
  | r
  | w
  | timeout
deriving Repr, DecidableEq

/-- What `recv` with `MSG_PEEK` finds (src/app/webser.c:88-106). -/
def peek (c : C) : WebSend.Peek := if c.sock = [] then (if c.fin then .closed else .again) else .byte

/-- One event. `none`: a callback of another phase, or NULL, is called. See src/common/event.c:204-232, src/app/webser.c:82-106, 417-436. -/
def step (k : Nat) (home index : List UInt8) (E : Nat → Env) (c : C) (e : Ev) : Option C :=
  match e with
  | .arrive b bs => some { c with sock := c.sock ++ [(b, bs)] }
  | .close => some { c with fin := true }
  | .r =>
    match c.ph with
    | .gone _ => some c
    | .rsp w keep => (WebSend.step { w with peek := [peek c] } .r).map fun w' => after k home index E c w' keep
    | .req ps =>
      match c.t.rcb with
      | none => some c
      | some (.app 20) => some (proc k home index E c ps)
      | _ => none
  | .w =>
    match c.ph with
    | .gone _ => some c
    | .rsp w keep => (WebSend.step w .w).map fun w' => after k home index E c w' keep
    | .req _ =>
      match c.t.wcb with
      | none => some c
      | _ => none
  | .timeout =>
    match c.ph with
    | .gone _ => some c
    | .rsp w keep => (WebSend.step w .timeout).map fun w' => after k home index E c w' keep
    | .req _ => some { c with ph := .gone .expired }

/-- A whole history. See src/common/event.c:204-232. -/
def run (k : Nat) (home index : List UInt8) (E : Nat → Env) (c : C) : List Ev → Option C
  | [] => some c
  | e :: es => (step k home index E c e).bind fun c' => run k home index E c' es

/-- The connection when `webser_accept_cb` calls `webser_start`, with the interest of a new connection (src/app/webser.c:438-463, 550-556, src/common/net.c:167-168): the first
receive call is made at once. -/
def start (k : Nat) (home index : List UInt8) (E : Nat → Env) (rx : List Nat) (sock : List (UInt8 × List UInt8)) : C :=
  proc k home index E (begin { i := 0, t := WebSend.plainT, sock, fin := false, rx, out := [], ph := .req .line } 0 WebSend.plainT) .line

end Verif.WebPlain
