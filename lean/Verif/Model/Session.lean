/-
Lifetime of the objects of one tunnel session: the client connection, the upstream connection, the resolver with its connection, the session
record and the SOCKS5 record. Only what decides about allocation, release and use of these objects is kept: which callback and which timer is
installed on which connection, and which pointers are set. The bytes themselves are the subject of the other models.

Simplifications. (1) The callbacks that `ssl_read` and `ssl_write` swap in and out (src/common/ssl.c:184-268) are left out; they are the subject
of `Model/Ssl`. (2) Readiness events may arrive for any direction at any time, whatever interest is registered; this allows more schedules than
the kernel does. (3) A released connection is not reported by the event loop (property C37). (4) Arming a timer
always succeeds (`heap_add` can fail when the heap is full). (5) A connection handed over by the web server in secret mode
(src/app/webser.c:503-505) enters at `tls_tunnel_s_start` with its handshake done, a state that the server session passes through as well.
-/
namespace Verif.Session

/-- Life of an object: never allocated, allocated, released. See src/common/mem.c:124-178. -/
inductive Life where
  | absent
  | live
  | freed
deriving DecidableEq, Repr

/-- The connections of a session: `cdown`, `cup` (src/app/tls_tunnel_s.h:22-33) and the resolver's connection (src/dns/dns.h:47-61). -/
inductive Id where
  | down
  | up
  | dns
deriving DecidableEq, Repr

/-- The functions that are called on a connection: event callbacks and timer callbacks. Server: src/app/tls_tunnel_s.c and src/app/socks5.c;
client: src/app/tls_tunnel_c.c; resolver: src/dns/dns.c; src/common/ssl.c and src/common/net.c. -/
inductive Cb where
  | sAccept | sStart | auth | p1req | p1rsp | p2req | cupAddr | tryRead | connect | connectChk | p2rsp
  | proc | recv | send | rrecv | rsend
  | cAccept | cRecv | cChk | cSsl | cBuild | cAuthSend
  | dnsPacket | dnsSend | dnsRecv
  | handshakeCb | shutdownCb
  | netExp | sesExp | freeDirect | sslExp | dnsExp
deriving DecidableEq, Repr

/-- The TLS state of a connection (`ssl_con_t`): none, created, handshake done, error or closed flag set. See src/common/ssl.h:15-29. -/
inductive Tls where
  | none
  | fresh
  | ready
  | bad
deriving DecidableEq, Repr

/-- A connection (src/common/net.h:19-34, src/common/event.h:20-33): callbacks, timer, TLS state with the two saved callbacks, whether `data` is set,
whether the descriptor was closed although its number is still stored. -/
structure Con where
  life : Life
  r : Option Cb
  w : Option Cb
  tm : Option Cb
  tls : Tls
  saveR : Option Cb
  saveW : Option Cb
  data : Bool
  closed : Bool
deriving DecidableEq, Repr

/-- A connection that does not exist yet. See src/common/net.c:249-256. -/
def noCon : Con := ⟨.absent, none, none, none, .none, none, none, false, false⟩

/-- A connection as made by `net_alloc` (src/common/net.c:249-256): all fields zero. -/
def newCon : Con := { noCon with life := .live }

/-- What can go wrong: use of a released object, use of a pointer that is NULL, release of a released object. See src/common/net.c:175-242. -/
inductive Fault where
  | useAfterFree
  | null
  | doubleFree
deriving DecidableEq, Repr

/-- The objects of one session. `sesCup` and `sesDns` say whether `ses->cup` and `ses->dns` are set; `dnsC` whether `dns->c` is; `call` is the
function that is about to run on a connection; `client` tells the two programs apart; `flag` is `frecv_err_down`, `flagUp` is
`frecv_err_up`; `twice` records that a descriptor was closed twice. See src/app/tls_tunnel_s.h:22-33. -/
structure W where
  client : Bool
  down : Con
  up : Con
  dcon : Con
  ses : Life
  adata : Life
  dns : Life
  sesCup : Bool
  sesDns : Bool
  flag : Bool
  flagUp : Bool
  twice : Bool
  call : Option (Cb × Id)
deriving DecidableEq, Repr

/-- A step of the program: a new state or a fault. See src/common/event.c:204-232. -/
abbrev M (α : Type) := Except Fault α

/-- How the system calls inside one activation of a function go. `ok`: all succeed (for functions with two ways to succeed, the first);
`ok2`: the second way; `wait`: would block (for a handshake: waiting to read, or to write); `err`: failure; `mem1`...: the first, second,
third allocation fails. See src/app/socks5.c:45-193, src/app/tls_tunnel_s.c:269-338, src/dns/dns.c:193-362. -/
inductive Out where
  | ok
  | ok2
  | wait (write : Bool)
  | err
  | mem1
  | mem2
  | mem3
deriving DecidableEq, Repr

/-- How a TLS shutdown goes if one is started (src/common/ssl.c:58-99): finished (or failed), or waiting to read or to write. -/
inductive Sd where
  | done
  | wait (write : Bool)
deriving DecidableEq, Repr

/-- The connection with a name. See src/app/tls_tunnel_s.h:26-29. -/
def W.con (w : W) : Id → Con
  | .down => w.down
  | .up => w.up
  | .dns => w.dcon

/-- Replace a connection. See src/app/tls_tunnel_s.h:26-29. -/
def W.set (w : W) : Id → Con → W
  | .down, c => { w with down := c }
  | .up, c => { w with up := c }
  | .dns, c => { w with dcon := c }

/-- Use of an object through a pointer. See src/common/mem.c:124-178. -/
def use : Life → M Unit
  | .live => .ok ()
  | .freed => .error .useAfterFree
  | .absent => .error .null

/-- Release of an object through a pointer. See src/common/mem.c:124-132. -/
def free : Life → M Life
  | .live => .ok .freed
  | .freed => .error .doubleFree
  | .absent => .error .null

/-- Use of a connection. See src/app/tls_tunnel_s.h:26-27. -/
def useCon (w : W) (i : Id) : M Con := do
  use (w.con i).life
  return w.con i

/-- The session reached from a connection's `data` (`ses = c->data`). See src/app/tls_tunnel_s.c:31-54. -/
def useSes (w : W) (i : Id) : M Unit := do
  let c ← useCon w i
  if c.data then use w.ses else .error .null

/-- The function returns. See src/common/event.c:204-232. -/
def ret (w : W) : W := { w with call := none }

/-- The function ends by calling another one on a connection. See src/common/event.c:204-232. -/
def goto (w : W) (f : Cb) (i : Id) : W := { w with call := some (f, i) }

/-- Set the callbacks of a connection. See src/common/event.h:29-30. -/
def setCb (w : W) (i : Id) (r wr : Option Cb) : W := w.set i { w.con i with r := r, w := wr }

/-- `EZ_TMADD` (src/common/timer.h:28, src/common/timer.c:13-24): replaces the timer of the connection. -/
def tmAdd (w : W) (i : Id) (f : Cb) : W := w.set i { w.con i with tm := some f }

/-- `EZ_TMDEL` (src/common/timer.h:29, src/common/timer.c:5-11). -/
def tmDel (w : W) (i : Id) : W := w.set i { w.con i with tm := none }

/-- `tls_ses_release_cdown` (src/app/tls_tunnel_s.c:31-39). -/
def releaseSes (w : W) : M W := do
  use w.ses
  let a ← if w.adata = .absent then .ok Life.absent else free w.adata
  let s ← free w.ses
  return { w with adata := a, ses := s }

/-- `net_free_direct` (src/common/net.c:175-208). The `data_cb` of the client connection is `tls_ses_release_cdown`, that of the upstream
connection `tls_ses_release_cup`, which does nothing (src/app/tls_tunnel_s.c:42-45), the resolver's has none (src/dns/dns.c:345). -/
def netFreeDirect (w : W) (i : Id) : M W := do
  let c ← useCon w i
  let w := if c.closed then { w with twice := true } else w
  let w ← if i = .down ∧ c.data then releaseSes w else .ok w
  let l ← free c.life
  return w.set i { noCon with life := l }

/-- `ssl_shutdown` when it has to wait (src/common/ssl.c:80-95): only the shutdown callback stays. -/
def shutdownWait (w : W) (i : Id) (write : Bool) : W :=
  if write then setCb w i none (some .shutdownCb) else setCb w i (some .shutdownCb) none

/-- `net_free` (src/common/net.c:210-242); a connection whose handshake is not finished is closed at once (src/common/ssl.c:65-68). -/
def netFree (w : W) (i : Id) (sd : Sd) : M W := do
  let c ← useCon w i
  match c.tls, sd with
  | .ready, .wait write => return tmAdd (shutdownWait w i write) i .freeDirect
  | _, _ => netFreeDirect w i

/-- Release of both sides, `net_free(ses->cup); net_free(ses->cdown)`, in this order everywhere. See src/app/tls_tunnel_s.c:47-54. -/
def freeBoth (w : W) (sd : Sd) : M W := do
  use w.ses
  let w ← if w.sesCup then netFree w .up sd else .error .null
  let w ← netFree w .down sd
  return ret w

/-- Release of the client connection alone. See src/app/socks5.c:196-345. -/
def freeDown (w : W) (sd : Sd) : M W := do
  let w ← netFree w .down sd
  return ret w

/-- `dns_free` (src/dns/dns.c:364-368), given the pointer `ses->dns`. -/
def dnsFree (w : W) : M W := do
  if w.sesDns then
    use w.dns
    let w ← netFreeDirect w .dns
    let d ← free w.dns
    return { w with dns := d }
  else .error .null

/-- `s5_cup_dns_cb` (src/app/socks5.c:98-129). -/
def dnsCb (w : W) (found : Bool) (sd : Sd) : M W := do
  use w.ses
  use w.adata
  let w ← dnsFree w
  if found then
    if w.sesCup then
      let _ ← useCon w .up
      return goto (setCb w .up none (some .connect)) .connect .up
    else .error .null
  else freeBoth w sd

/-- `dns_async_result` (src/dns/dns.c:18-23). -/
def dnsResult (w : W) (found : Bool) (sd : Sd) : M W := do
  use w.dns
  dnsCb w found sd

/-- `dns_alloc` (src/dns/dns.c:328-362). `mem1`: the resolver record is not allocated; `mem2`: its connection is not; `mem3`: the buffer or
the socket is not. -/
def dnsAlloc (w : W) (o : Out) (sd : Sd) : M W := do
  match o with
  | .mem1 => return ret w
  | .mem2 => dnsCb { w with dns := .live } false sd
  | .mem3 => dnsCb { w with dns := .live, dcon := newCon } false sd
  | _ => return goto { w with dns := .live, sesDns := true, dcon := { newCon with w := some .dnsPacket, data := true } } .dnsPacket .dns

/-- `ssl_handshake` (src/common/ssl.c:144-180) with the result 1, would block, or an error; the boolean says whether it is done. A handshake
that is done stays done (SSL_do_handshake of OpenSSL, assumed). -/
def handshake (w : W) (i : Id) (o : Out) : W × Option Bool :=
  let c := w.con i
  match c.tls, o with
  | .ready, _ => (w, some true)
  | _, .ok => (w.set i { c with tls := .ready }, some true)
  | _, .wait write =>
    let c := { c with saveR := if c.saveR = none then c.r else c.saveR, saveW := if c.saveW = none then c.w else c.saveW }
    let c := if write then { c with w := some .handshakeCb } else { c with r := some .handshakeCb }
    (w.set i c, none)
  | _, _ => (w.set i { c with tls := .bad }, some false)

/-- `ssl_handshake_cb` (src/common/ssl.c:101-142). -/
def handshakeCb (w : W) (i : Id) (o : Out) : M W := do
  let _ ← useCon w i
  match handshake w i o with
  | (w, none) => return ret (tmAdd w i .sslExp)
  | (w, some true) =>
    let w := tmDel w i
    let c := w.con i
    let c := { c with w := if c.saveW = none then c.w else c.saveW, saveW := none, r := if c.saveR = none then c.r else c.saveR, saveR := none }
    let w := w.set i c
    match c.w, c.r with
    | some f, _ => return goto w f i
    | none, some f => return goto w f i
    | none, none => .error .null
  | (w, some false) =>
    let w := tmDel w i
    let f := if w.client then Cb.cSsl else Cb.sAccept
    let c := w.con i
    if c.w = none then return goto (w.set i { c with r := some f }) f i else return goto (w.set i { c with w := some f }) f i

/-- `ssl_shutdown_cb` (src/common/ssl.c:44-56). -/
def shutdownCb (w : W) (i : Id) (sd : Sd) : M W := do
  let _ ← useCon w i
  match sd with
  | .wait write => return ret (tmAdd (shutdownWait w i write) i .sslExp)
  | .done =>
    let w ← netFreeDirect w i
    return ret w

/-- `tls_tunnel_s_accept` (src/app/tls_tunnel_s.c:300-338). `mem1`: the TLS connection cannot be created. -/
def sAccept (w : W) (o : Out) (sd : Sd) : M W := do
  let _ ← useCon w .down
  let w := tmDel w .down
  if w.down.tls = .none ∧ o = .mem1 then freeDown w sd
  else
    let w := if w.down.tls = .none then w.set .down { w.down with tls := .fresh } else w
    if w.down.tls = .bad then freeDown w sd
    else if w.down.tls = .ready then return goto (setCb w .down (some .sStart) none) .sStart .down
    else
      match handshake w .down o with
      | (w, none) => return ret (tmAdd w .down .netExp)
      | (w, some true) => return goto (setCb w .down (some .sStart) none) .sStart .down
      | (w, some false) => freeDown w sd

/-- `tls_tunnel_s_start` (src/app/tls_tunnel_s.c:269-298). `mem1`: no buffer, `mem2`: no session record, `mem3`: no SOCKS5 record. -/
def sStart (w : W) (o : Out) (sd : Sd) : M W := do
  let _ ← useCon w .down
  let w := tmDel w .down
  match o with
  | .mem1 => freeDown w sd
  | .mem2 => freeDown w sd
  | .mem3 => freeDown (W.set { w with ses := .live } .down { w.down with data := true }) sd
  | _ => return goto (setCb (W.set { w with ses := .live, adata := .live } .down { w.down with data := true }) .down (some .auth) none) .auth .down

/-- `tls_tunnel_s_auth_chk` (src/app/tls_tunnel_s.c:231-267); `err`: the receive fails or the header is refused. -/
def auth (w : W) (o : Out) (sd : Sd) : M W := do
  let _ ← useCon w .down
  match o with
  | .wait _ => return ret (tmAdd w .down .sesExp)
  | .ok => return goto (setCb (tmDel w .down) .down (some .p1req) none) .p1req .down
  | _ => freeDown w sd

/-- `s5_p1_req` (src/app/socks5.c:371-436). -/
def p1req (w : W) (o : Out) (sd : Sd) : M W := do
  useSes w .down
  use w.adata
  match o with
  | .wait _ => return ret (tmAdd w .down .sesExp)
  | .ok => return goto (setCb (tmDel w .down) .down none (some .p1rsp)) .p1rsp .down
  | _ => freeDown w sd

/-- `s5_p1_rsp` (src/app/socks5.c:347-369). -/
def p1rsp (w : W) (o : Out) (sd : Sd) : M W := do
  let _ ← useCon w .down
  match o with
  | .wait _ => return ret (tmAdd w .down .sesExp)
  | .ok => return goto (setCb (tmDel w .down) .down (some .p2req) none) .p2req .down
  | _ => freeDown w sd

/-- `s5_p2_req` (src/app/socks5.c:196-345); `err`: the receive fails or the request is refused. -/
def p2req (w : W) (o : Out) (sd : Sd) : M W := do
  useSes w .down
  use w.adata
  match o with
  | .wait _ => return ret (tmAdd w .down .sesExp)
  | .ok => return goto (setCb (tmDel w .down) .down (some .cupAddr) none) .cupAddr .down
  | _ => freeDown w sd

/-- `s5_cup_addr` (src/app/socks5.c:131-193). `ok2`: the address is known (an IPv4 request or a cached name); `err`: the upstream connection
is not allocated; otherwise the resolver is started, with its failures `mem1` to `mem3`. -/
def cupAddr (w : W) (o : Out) (sd : Sd) : M W := do
  useSes w .down
  use w.adata
  let w := setCb w .down (some .tryRead) none
  match o with
  | .err => freeDown w sd
  | .ok2 => return goto { w with up := { newCon with w := some .connect, data := true }, sesCup := true } .connect .up
  | o => dnsAlloc { w with up := { newCon with data := true }, sesCup := true } o sd

/-- `s5_try_read` (src/app/socks5.c:6-16). -/
def tryRead (w : W) (o : Out) (sd : Sd) : M W := do
  useSes w .down
  match o with
  | .err => freeBoth w sd
  | _ => return ret w

/-- `s5_cup_connect` (src/app/socks5.c:77-96) with `net_connect` (src/common/net.c:87-125): `err` is a failed `connect`, after which the
descriptor is closed but still stored; `mem1` is a failure before the descriptor is stored. -/
def connect (w : W) (o : Out) (sd : Sd) : M W := do
  useSes w .up
  let w := setCb w .up none (some .connectChk)
  match o with
  | .wait _ => return ret (tmAdd w .up .sesExp)
  | .ok => return goto w .connectChk .up
  | .err => freeBoth (w.set .up { w.up with closed := true }) sd
  | _ => freeBoth w sd

/-- `s5_cup_connect_chk` (src/app/socks5.c:45-75). -/
def connectChk (w : W) (o : Out) (sd : Sd) : M W := do
  useSes w .up
  let _ ← useCon w .down
  let w := tmDel w .up
  match o with
  | .err => freeBoth w sd
  | _ => return goto (setCb (setCb w .up none none) .down none (some .p2rsp)) .p2rsp .down

/-- `s5_p2_rsp` (src/app/socks5.c:18-43). -/
def p2rsp (w : W) (o : Out) (sd : Sd) : M W := do
  useSes w .down
  match o with
  | .wait _ => return ret (tmAdd w .down .sesExp)
  | .ok => return goto (setCb (tmDel w .down) .down (some .proc) none) .proc .down
  | _ => freeBoth w sd

/-- `tls_tunnel_traffic_proc` (src/app/tls_tunnel_s.c:193-229). -/
def proc (w : W) (o : Out) (sd : Sd) : M W := do
  useSes w .down
  let _ ← useCon w .up
  match o with
  | .mem1 => freeBoth w sd
  | _ => return goto (setCb (setCb w .down (some .recv) none) .up (some .rrecv) none) .recv .down

/-- `tls_tunnel_traffic_recv` (src/app/tls_tunnel_s.c:57-88). `ok`: there is data; `ok2`: there is data and the stream ended; `err`: the
stream ended without data. -/
def recv (w : W) (i : Id) (o : Out) (sd : Sd) : M W := do
  useSes w i
  let _ ← useCon w .down
  let _ ← useCon w .up
  let w := tmAdd w .down .sesExp
  match o with
  | .ok => return goto (w.set .down { w.down with r := none } |>.set .up { w.up with w := some .send }) .send .up
  | .ok2 => return goto (W.set { w with flag := true } .down { w.down with r := none } |>.set .up { w.up with w := some .send }) .send .up
  | .wait _ => if w.flag then freeBoth w sd else return ret w
  | _ => freeBoth { w with flag := true } sd

/-- `tls_tunnel_traffic_send` (src/app/tls_tunnel_s.c:90-123). -/
def send (w : W) (i : Id) (o : Out) (sd : Sd) : M W := do
  useSes w i
  let _ ← useCon w .down
  let _ ← useCon w .up
  let w := tmAdd w .up .sesExp
  match o with
  | .wait _ => return ret w
  | .ok => if w.flag then freeBoth w sd else return goto (w.set .up { w.up with w := none } |>.set .down { w.down with r := some .recv }) .recv .down
  | _ => freeBoth w sd

/-- `tls_tunnel_traffic_reverse_recv` (src/app/tls_tunnel_s.c:125-156). -/
def rrecv (w : W) (i : Id) (o : Out) (sd : Sd) : M W := do
  useSes w i
  let _ ← useCon w .down
  let _ ← useCon w .up
  let w := tmAdd w .up .sesExp
  match o with
  | .ok => return goto (w.set .up { w.up with r := none } |>.set .down { w.down with w := some .rsend }) .rsend .down
  | .ok2 => return goto (W.set { w with flagUp := true } .up { w.up with r := none } |>.set .down { w.down with w := some .rsend }) .rsend .down
  | .wait _ => if w.flagUp then freeBoth w sd else return ret w
  | _ => freeBoth { w with flagUp := true } sd

/-- `tls_tunnel_traffic_reverse_send` (src/app/tls_tunnel_s.c:158-191). -/
def rsend (w : W) (i : Id) (o : Out) (sd : Sd) : M W := do
  useSes w i
  let _ ← useCon w .down
  let _ ← useCon w .up
  let w := tmAdd w .down .sesExp
  match o with
  | .wait _ => return ret w
  | .ok => if w.flagUp then freeBoth w sd else return goto (w.set .down { w.down with w := none } |>.set .up { w.up with r := some .rrecv }) .rrecv .up
  | _ => freeBoth w sd

/-- `tls_tunnel_c_accept` (src/app/tls_tunnel_c.c:150-209). `mem1`: no buffer or no session record; `mem2`: no upstream connection; `mem3`: no
upstream buffer; `err`: `connect` fails. -/
def cAccept (w : W) (o : Out) (sd : Sd) : M W := do
  let _ ← useCon w .down
  let w := tmDel w .down
  match o with
  | .mem1 => freeDown w sd
  | .mem2 => freeDown (setCb (W.set { w with ses := .live } .down { w.down with data := true }) .down (some .cRecv) none) sd
  | o =>
    let w := setCb (W.set { w with ses := .live } .down { w.down with data := true }) .down (some .cRecv) none
    let w := { w with up := { newCon with data := true }, sesCup := true }
    match o with
    | .mem3 => freeBoth w sd
    | .wait _ => return ret (tmAdd (setCb w .up none (some .cChk)) .up .sesExp)
    | .ok => return goto (setCb w .up none (some .cChk)) .cChk .up
    | _ => freeBoth (w.set .up { w.up with closed := true }) sd

/-- `tls_tunnel_c_recv` (src/app/tls_tunnel_c.c:7-34); `err`: the receive fails or the buffer is full. -/
def cRecv (w : W) (o : Out) (sd : Sd) : M W := do
  useSes w .down
  match o with
  | .err => freeBoth w sd
  | _ => return ret w

/-- `tls_tunnel_c_connect_chk` (src/app/tls_tunnel_c.c:133-147). -/
def cChk (w : W) (o : Out) (sd : Sd) : M W := do
  useSes w .up
  let w := tmDel w .up
  match o with
  | .err => freeBoth w sd
  | _ => return goto (w.set .up { w.up with w := some .cSsl }) .cSsl .up

/-- `tls_tunnel_c_connect_ssl` (src/app/tls_tunnel_c.c:88-130). -/
def cSsl (w : W) (o : Out) (sd : Sd) : M W := do
  useSes w .up
  if w.up.tls = .none ∧ o = .mem1 then freeBoth w sd
  else
    let w := if w.up.tls = .none then w.set .up { w.up with tls := .fresh } else w
    if w.up.tls = .bad then freeBoth w sd
    else if w.up.tls = .ready then return goto (setCb w .up none (some .cBuild)) .cBuild .up
    else
      match handshake w .up o with
      | (w, none) => return ret (tmAdd w .up .sesExp)
      | (w, some true) => return goto (setCb w .up none (some .cBuild)) .cBuild .up
      | (w, some false) => freeBoth w sd

/-- `tls_tunnel_c_auth_build` (src/app/tls_tunnel_c.c:68-86). -/
def cBuild (w : W) : M W := do
  let _ ← useCon w .up
  return goto (setCb w .up none (some .cAuthSend)) .cAuthSend .up

/-- `tls_tunnel_c_auth_send` (src/app/tls_tunnel_c.c:44-66). -/
def cAuthSend (w : W) (o : Out) (sd : Sd) : M W := do
  useSes w .up
  match o with
  | .wait _ => return ret (tmAdd w .up .sesExp)
  | .ok =>
    let _ ← useCon w .down
    return goto (setCb (tmDel w .up) .down (some .proc) none) .proc .down
  | _ => freeBoth w sd

/-- `dns_request_packet` (src/dns/dns.c:291-326). -/
def dnsPacket (w : W) : M W := do
  let _ ← useCon w .dns
  use w.dns
  return goto (setCb w .dns none (some .dnsSend)) .dnsSend .dns

/-- `dns_request_send` (src/dns/dns.c:234-258). -/
def dnsSend (w : W) (o : Out) (sd : Sd) : M W := do
  let _ ← useCon w .dns
  use w.dns
  match o with
  | .wait _ => return ret (tmAdd w .dns .dnsExp)
  | .ok => return goto (setCb w .dns (some .dnsRecv) none) .dnsRecv .dns
  | _ => dnsResult w false sd

/-- `dns_response_recv` and `dns_response_analyze` (src/dns/dns.c:193-232, 97-191). `ok`: an address is found, `ok2`: none is found. -/
def dnsRecv (w : W) (o : Out) (sd : Sd) : M W := do
  let _ ← useCon w .dns
  use w.dns
  match o with
  | .wait _ => return ret (tmAdd w .dns .dnsExp)
  | .ok => dnsResult (tmDel w .dns) true sd
  | .ok2 => dnsResult (tmDel w .dns) false sd
  | _ => dnsResult w false sd

/-- `tls_ses_exp` (src/app/tls_tunnel_s.c:47-54). -/
def sesExp (w : W) (i : Id) (sd : Sd) : M W := do
  useSes w i
  let w ← if w.sesCup then netFree w .up sd else .ok w
  let w ← netFree w .down sd
  return ret w

/-- `ssl_cexp` (src/common/ssl.c:37-42). -/
def sslExp (w : W) (i : Id) (sd : Sd) : M W := do
  let c ← useCon w i
  let w ← netFree (w.set i { c with tls := .bad }) i sd
  return ret w

/-- Run the function `f` on connection `i`. Timer callbacks: `net_exp` (src/common/net.c:244-247), `net_free_direct`, `dns_cexp`
(src/dns/dns.c:25-29) and the two above. -/
def run1 (w : W) (f : Cb) (i : Id) (o : Out) (sd : Sd) : M W :=
  match f with
  | .sAccept => sAccept w o sd
  | .sStart => sStart w o sd
  | .auth => auth w o sd
  | .p1req => p1req w o sd
  | .p1rsp => p1rsp w o sd
  | .p2req => p2req w o sd
  | .cupAddr => cupAddr w o sd
  | .tryRead => tryRead w o sd
  | .connect => connect w o sd
  | .connectChk => connectChk w o sd
  | .p2rsp => p2rsp w o sd
  | .proc => proc w o sd
  | .recv => recv w i o sd
  | .send => send w i o sd
  | .rrecv => rrecv w i o sd
  | .rsend => rsend w i o sd
  | .cAccept => cAccept w o sd
  | .cRecv => cRecv w o sd
  | .cChk => cChk w o sd
  | .cSsl => cSsl w o sd
  | .cBuild => cBuild w
  | .cAuthSend => cAuthSend w o sd
  | .dnsPacket => dnsPacket w
  | .dnsSend => dnsSend w o sd
  | .dnsRecv => dnsRecv w o sd
  | .handshakeCb => handshakeCb w i o
  | .shutdownCb => shutdownCb w i sd
  | .netExp => do
    let w ← netFree w i sd
    return ret w
  | .sesExp => sesExp w i sd
  | .freeDirect => do
    let w ← netFreeDirect w i
    return ret w
  | .sslExp => sslExp w i sd
  | .dnsExp => do
    let _ ← useCon w .dns
    dnsResult w false sd

/-- What may happen next: readiness of a connection (read or write side), expiry of its timer, or, while a function is about to run, the
results of its system calls. See src/common/event.c:204-232, src/common/timer.c:35-56. -/
inductive Ev where
  | ready (i : Id) (write : Bool)
  | timer (i : Id)
  | out (o : Out) (sd : Sd)
deriving DecidableEq, Repr

/-- One step. An event that cannot happen in the state changes nothing. Readiness: `ev_loop`, src/common/event.c:204-232; timers:
src/common/timer.c:35-56, the timer is disarmed before its callback runs. -/
def step (w : W) (e : Ev) : M W :=
  match w.call, e with
  | some (f, i), .out o sd => run1 w f i o sd
  | none, .ready i write =>
    match (w.con i).life, (if write then (w.con i).w else (w.con i).r) with
    | .live, some f => .ok (goto w f i)
    | _, _ => .ok w
  | none, .timer i =>
    match (w.con i).tm with
    | some f => .ok (goto (tmDel w i) f i)
    | none => .ok w
  | _, _ => .ok w

/-- A connection just accepted (src/common/net.c:127-173): the listener's callback and the accept timer. -/
def start (client : Bool) : W :=
  { client := client, down := { newCon with r := some (if client then .cAccept else .sAccept), tm := some .netExp }, up := noCon, dcon := noCon,
    ses := .absent, adata := .absent, dns := .absent, sesCup := false, sesDns := false, flag := false, flagUp := false, twice := false, call := none }

/-- A whole history. See src/common/process.c:56-63. -/
def runAll : W → List Ev → M W
  | w, [] => .ok w
  | w, e :: es =>
    match step w e with
    | .ok w => runAll w es
    | .error f => .error f

end Verif.Session
