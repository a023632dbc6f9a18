import Verif.Model.HttpReq
import Verif.Model.EzHash
import Verif.Model.NetSend
import Verif.Model.Auth
import Verif.Model.Mem
/-
The web server: src/app/webser.c (routing, static files, content types, file streaming).

Not modelled: the response header text except its status line, timers (a timeout closes the connection like a failed send).
-/
namespace Verif.Web

open Verif.Http (Meth)

/-- `webser_api_t` (src/app/webser.h): the registered key as a C string, the method, and an identifier of the handler. -/
structure Api where
  key : List UInt8
  method : Meth
  handler : Nat
deriving Repr, DecidableEq

/-- `webser_api_reg` (src/app/webser.c:47-61): a key of more than 31 bytes is cut to `sizeof(char *) - 1` bytes. The API list
(`mem_arr_t`) is modelled as a sequence (property C51). -/
def apiReg (l : List Api) (key : List UInt8) (m : Meth) (h : Nat) : List Api :=
  l ++ [⟨if key.length > 31 then key.take 7 else key, m, h⟩]

/-- `webser_api_find` (src/app/webser.c:17-45) for a target `uri` of non-negative length: the first entry with equal length, equal
bytes and equal method. -/
def apiFind (l : List Api) (uri : List UInt8) (m : Meth) : Option Api :=
  match l with
  | [] => none
  | a :: r =>
    if a.key.length ≠ uri.length then apiFind r uri m
    else if a.key ≠ uri then apiFind r uri m
    else if m ≠ a.method then apiFind r uri m
    else some a

/-- `strstr(s, "../") != NULL` (src/app/webser.c:409). -/
def hasDotDotSlash : List UInt8 → Bool
  | [] => false
  | b :: r => [46, 46, 47].isPrefixOf (b :: r) || hasDotDotSlash r

/-- Outcome of `webser_req_router` (src/app/webser.c:391-415). -/
inductive Route where
  | api (a : Api)
  /-- `webser_req_file` is called -/
  | file
  /-- `net_free(c)` -/
  | close
  /-- `memcpy` with a negative length converted to `size_t` -/
  | crash
deriving Repr, DecidableEq

/-- `webser_req_router` (src/app/webser.c:391-415). `uriLen` is the signed length of the target and `uri` its bytes when it is not
negative. The copy `uri[1024]` has no terminating NUL when the target has 1024 bytes or more, so `strstr` continues into
whatever follows on the stack: `stack` are those bytes up to the next NUL. Targets contain no NUL (src/http/http_req.c:56). -/
def route (apis : List Api) (uriLen : Int) (uri : List UInt8) (m : Meth) (stack : List UInt8) : Route :=
  match (if uriLen < 0 then none else apiFind apis uri m) with
  | some a => .api a
  | none =>
    if m ≠ .get then .close
    else if uriLen < 0 then .crash
    else if hasDotDotSlash (uri.take 1024 ++ (if uri.length < 1024 then [] else stack)) then .close
    else .file

/-- Result of building the path. See src/app/webser.c:340-356. -/
inductive Path where
  | ok (p : List UInt8)
  /-- `snprintf` writes behind the array -/
  | overflow
deriving Repr, DecidableEq

/-- The array `p[2048]` (src/app/webser.c:345). -/
def pathn : Nat := 2048

/-- One `s += snprintf(s, e-s, "%s", x)` (src/app/webser.c:349-355): `p` is the text in the array, `s` the offset reached, which counts
the full length of the arguments even when they were cut. A negative `e-s` becomes a huge size. -/
def snp (p : List UInt8) (s : Nat) (x : List UInt8) : Option (List UInt8 × Nat) :=
  if s < pathn then some ((p ++ x).take (pathn - 1), s + x.length)
  else if s = pathn then some (p, s + x.length)
  else none

/-- The path opened by `webser_req_file` (src/app/webser.c:345-356). -/
def filePath (home index uri : List UInt8) : Path :=
  match snp [] 0 home with
  | none => .overflow
  | some (p1, s1) =>
    if uri.length > 0 then
      match snp p1 s1 uri with
      | none => .overflow
      | some (p2, s2) =>
        if uri.getLast? = some 47 then
          match snp p2 s2 index with
          | none => .overflow
          | some (p3, _) => .ok p3
        else .ok p2
    else
      match snp p1 s1 (47 :: index) with
      | none => .overflow
      | some (p2, _) => .ok p2

/-- `strrchr(p, '.')` (src/app/webser.c:357): the suffix from the last dot on, `none` for NULL. -/
def lastDot : List UInt8 → Option (List UInt8)
  | [] => none
  | b :: r =>
    match lastDot r with
    | some s => some s
    | none => if b = 46 then some (b :: r) else none

/-- ASCII bytes of a literal. See src/app/webser.c:558-603. -/
def str (s : String) : List UInt8 := s.toUTF8.toList

/-- The calls of `webser_init_mimehash` (src/app/webser.c:558-603), in order. -/
def mimeAdds : List (List UInt8 × List UInt8) :=
  [(str ".html", str "text/html"), (str ".js", str "application/x-javascript"), (str ".json", str "application/json"),
   (str ".png", str "image/png"), (str ".jpg", str "image/jpeg"), (str ".jpeg", str "image/jpeg"), (str ".gif", str "image/gif"),
   (str ".ico", str "image/x-icon"), (str ".css", str "text/css"), (str ".txt", str "text/plain"), (str ".htm", str "text/html"),
   (str ".mp3", str "audio/mpeg"), (str ".m3u8", str "application/x-mpegURL"), (str ".ts", str "video/MP2T")]

/-- One of the `ezhash_add` calls, allocation succeeding. See src/app/webser.c:558-603. -/
def mimeAdd (t : EzHash.Tab (List UInt8)) (kv : List UInt8 × List UInt8) : EzHash.Tab (List UInt8) :=
  match EzHash.add EzHash.fnv1a t kv.1 kv.2 true true true with
  | .ok t' => t'
  | _ => t

/-- The table built by `webser_init_mimehash` (src/app/webser.c:558-603). -/
def mimeTab : EzHash.Tab (List UInt8) := mimeAdds.foldl mimeAdd (EzHash.create (List UInt8) 97)

/-- `webser_rsp_mime` (src/app/webser.c:135-140) applied to `strrchr`'s result; `none` is the crash in `strlen(NULL)`. -/
def mime (path : List UInt8) : Option (List UInt8) :=
  match lastDot path with
  | none => none
  | some k =>
    match EzHash.find EzHash.fnv1a mimeTab k with
    | some v => some v
    | none => some (str "text/plain")

/-- What `stat` and `open` say about the path (src/app/webser.c:360-378). -/
inductive Stat where
  | missing
  /-- `S_IFMT` bits all zero -/
  | noType
  /-- owner may not read -/
  | unreadable
  /-- owner may read; size in bytes; whether `open` succeeds -/
  | readable (size : Nat) (openOk : Bool)
deriving Repr, DecidableEq

/-- Conversion of `st_size` to the `int` field `fsize` (src/app/webser.c:372). -/
def toInt32 (n : Nat) : Int :=
  let w := n % 4294967296
  if w < 2147483648 then w else (w : Int) - 4294967296

/-- `http_code` and `fsize` chosen by `webser_req_file` (src/app/webser.c:359-379). -/
def fileCode : Stat → Nat × Int
  | .missing => (400, 0)
  | .noType => (404, 0)
  | .unreadable => (403, 0)
  | .readable size _ => (200, toInt32 size)

/-- Status line written by `webser_rsp` (src/app/webser.c:306-318). -/
def statusLine (code : Nat) : List UInt8 :=
  if code = 200 then str "HTTP/1.1 200 OK\r\n"
  else if code = 400 then str "HTTP/1.1 400 Bad Request"
  else if code = 403 then str "HTTP/1.1 403 Forbidden\r\n"
  else if code = 404 then str "HTTP/1.1 404 Not Found\r\n"
  else if code = 500 then str "HTTP/1.1 500 Internal Server Error\r\n"
  else str "HTTP/1.1 400 Bad Request"

/-- Capacity of the file buffer (src/app/webser.c:216): WEB_PAYLOAD_LEN − sizeof(meta_t). -/
def ffCap : Nat := 16384 - 40

/-- State of `webser_rsp_payload_send_ff` (src/app/webser.c:167-210): file offset, unsent bytes of the buffer, offset of `last` in the
buffer, `fsend`. -/
structure Ff where
  off : Nat := 0
  buf : List UInt8 := []
  last : Nat := 0
  fsend : Nat := 0
deriving Repr, DecidableEq

/-- How streaming ends for the observed I/O results. See src/app/webser.c:167-210. -/
inductive FfEnd where
  /-- everything sent -/
  | done
  /-- connection closed after an error -/
  | closed
  /-- the observed results are used up while the socket blocks -/
  | waiting
deriving Repr, DecidableEq

/-- The bytes accepted by the kernel, and the end. See src/app/webser.c:167-210. -/
structure FfOut where
  wire : List UInt8
  fin : FfEnd
deriving Repr, DecidableEq

/-- Add bytes in front of the wire output. See src/app/webser.c:167-210. -/
def FfOut.pre (w : List UInt8) (o : FfOut) : FfOut := ⟨w ++ o.wire, o.fin⟩

/-- Continue with a new state and the remaining I/O results, or stop. See src/app/webser.c:167-210. -/
abbrev FfNext := FfEnd ⊕ (Ff × List Net.Tx × List Nat)

/-- Offset of `last` after `if (meta_getlen(meta) == 0) meta_clr(meta)` (src/app/webser.c:188-189). -/
def ffLast (st : Ff) : Nat := if st.buf = [] then 0 else st.last

/-- The part of an iteration after the send (src/app/webser.c:186-200). `rd` are the amounts `read` would return if room and file allow;
a `read` at the end of the file returns 0. Simplification: at the end of the given amounts `read` fails. -/
def ffRead (file : List UInt8) (fsize : Int) (st : Ff) (tx : List Net.Tx) (rd : List Nat) : FfNext :=
  if (st.fsend : Int) ≥ fsize then .inl .done
  else
    if ffCap - ffLast st > 0 then
      match rd with
      | [] => .inl .closed
      | n :: rd' =>
        let got := (file.drop st.off).take (min n (ffCap - ffLast st))
        if got = [] then .inl .closed
        else .inr ({ st with off := st.off + got.length, buf := st.buf ++ got, last := ffLast st + got.length }, tx, rd')
    else .inr ({ st with last := ffLast st }, tx, rd)

/-- One iteration of `for (;;)` of `webser_rsp_payload_send_ff` (src/app/webser.c:171-201): bytes accepted by the kernel, and what is next.
After `-11` the next writable event enters the loop again with the same state. `tx` are the results of `c->send`. -/
def ffStep (file : List UInt8) (fsize : Int) (st : Ff) (tx : List Net.Tx) (rd : List Nat) : List UInt8 × FfNext :=
  if st.buf = [] then ([], ffRead file fsize st tx rd)
  else
    match tx with
    | [] => ([], .inl .waiting)
    | .again :: tx' => ([], .inr (st, tx', rd))
    | .fail :: _ => ([], .inl .closed)
    | .sent n :: tx' =>
      (st.buf.take n,
        ffRead file fsize { st with buf := st.buf.drop n, fsend := st.fsend + min n st.buf.length } tx' rd)

theorem ffRead_le {file : List UInt8} {fsize : Int} {st : Ff} {tx : List Net.Tx} {rd : List Nat} {o : Ff × List Net.Tx × List Nat}
    (h : ffRead file fsize st tx rd = .inr o) : o.2.1 = tx ∧ o.2.2.length ≤ rd.length ∧ (st.buf = [] → o.2.2.length < rd.length) := by
  unfold ffRead at h
  split at h
  · simp at h
  · split at h
    · cases rd with
      | nil => simp at h
      | cons n rd' =>
        simp only at h
        split at h
        · simp at h
        · simp only [Sum.inr.injEq] at h; subst h; simp
    · rename_i hc
      simp only [Sum.inr.injEq] at h
      subst h
      refine ⟨rfl, Nat.le_refl _, fun hb => ?_⟩
      simp [ffLast, hb, ffCap] at hc

theorem ffStep_lt {file : List UInt8} {fsize : Int} {st : Ff} {tx : List Net.Tx} {rd : List Nat} {w : List UInt8}
    {o : Ff × List Net.Tx × List Nat} (h : ffStep file fsize st tx rd = (w, .inr o)) :
    o.2.1.length + o.2.2.length < tx.length + rd.length := by
  unfold ffStep at h
  split at h
  · rename_i hb
    have := ffRead_le (Prod.mk.inj h).2
    rw [this.1]; have := this.2.2 hb; omega
  · cases tx with
    | nil => simp at h
    | cons x tx' =>
      cases x with
      | again => simp only [Prod.mk.injEq, Sum.inr.injEq] at h; rw [← h.2]; simp only [List.length_cons]; omega
      | fail => simp at h
      | sent n =>
        have := ffRead_le (Prod.mk.inj h).2
        rw [this.1]; simp only [List.length_cons]; omega

/-- `webser_rsp_payload_send_ff` (src/app/webser.c:167-210) over all its invocations. -/
def ff (file : List UInt8) (fsize : Int) (st : Ff) (tx : List Net.Tx) (rd : List Nat) : FfOut :=
  match _h : ffStep file fsize st tx rd with
  | (w, .inl e) => ⟨w, e⟩
  | (w, .inr o) => FfOut.pre w (ff file fsize o.1 o.2.1 o.2.2)
termination_by tx.length + rd.length
decreasing_by exact ffStep_lt _h

/-- Whether `webser_rsp_hdr_send` goes on to the payload of a file response (src/app/webser.c:247-253). -/
def hasPayload (fsize : Int) : Bool := decide (fsize > 0)

/-- Results of `sends` for a sequence of system call results (src/common/net_send.c:30-51); `EINTR` repeats the call. -/
def sendsAll : List Net.SysTx → List Net.Tx
  | [] => []
  | .ok n :: t => .sent n :: sendsAll t
  | .eagain :: t => .again :: sendsAll t
  | .eintr :: t => sendsAll t
  | .err :: t => .fail :: sendsAll t

/-- The response to a file request on a plain connection: `webser_rsp_hdr_send`, then `webser_rsp_payload_send_ff`
(src/app/webser.c:231-260, 212-221, 167-210). `hdr` are the header buffers. -/
def respond (hdr : List (List UInt8)) (file : List UInt8) (fsize : Int) (sys : List Net.SysTx) (rd : List Nat) : FfOut :=
  let h := Net.sendChainsAll hdr sys
  match h.rc with
  | .again => ⟨h.wire, .waiting⟩
  | .fail => ⟨h.wire, .closed⟩
  | .done => if hasPayload fsize then FfOut.pre h.wire (ff file fsize {} (sendsAll h.rest) rd) else ⟨h.wire, .done⟩

/-- `webapi_init` (src/app/web_api.c:15-19): handler 0 is `wapi_echo_get`, handler 1 `wapi_echo_post`. -/
def apis : List Api := apiReg (apiReg [] (str "/echo") .get 0) (str "/echo") .post 1

/-- What a request leads to. See src/app/webser.c:391-415. -/
inductive Outcome where
  /-- connection closed without a response -/
  | close
  /-- file response: status code, content type, `fsize` -/
  | file (code : Nat) (ctype : List UInt8) (fsize : Int)
  /-- API response with code 200 by handler -/
  | api (handler : Nat)
  /-- undefined behaviour: NULL dereference or access outside an array -/
  | crash
deriving Repr, DecidableEq

/-- `webser_req_router` and the handlers (src/app/webser.c:340-415, src/app/web_api.c:5-13). `payload` says whether `webreq->payload` is
set, `stat` describes the file system. `wapi_echo_post` dereferences the payload. -/
def serve (home index : List UInt8) (stat : List UInt8 → Stat) (uriLen : Int) (uri : List UInt8) (m : Meth) (payload : Bool)
    (stack : List UInt8) : Outcome :=
  match route apis uriLen uri m stack with
  | .close => .close
  | .crash => .crash
  | .api a => if a.handler = 1 ∧ payload = false then .crash else .api a.handler
  | .file =>
    match filePath home index uri with
    | .overflow => .crash
    | .ok p =>
      match mime p with
      | none => .crash
      | some t => .file (fileCode (stat p)).1 t (fileCode (stat p)).2

/-- How `webser_transfer_to_tlstunnel` continues. See src/app/webser.c:468-506. -/
inductive Transfer where
  /-- waits for more bytes -/
  | wait (got : List UInt8)
  | close
  /-- `tls_tunnel_s_start` with the received bytes in `c->meta` -/
  | tunnel (buf : List UInt8) (rest : List Rx)
  /-- `webser_start`, which replaces `c->meta` by an empty buffer (src/app/webser.c:441) -/
  | web (buf : List UInt8) (rest : List Rx)
deriving Repr, DecidableEq

/-- `webser_transfer_to_tlstunnel` (src/app/webser.c:468-506), followed by the `meta_alloc` of `webser_start` (441). The buffer has 8192 bytes;
`got` are the bytes in it. -/
def transfer : List UInt8 → List Rx → Transfer
  | got, rx =>
    if got.length < 36 then
      match rx with
      | [] => .wait got
      | .again :: r => transfer got r
      | .fail :: _ => .close
      | .data b bs :: r => transfer (got ++ (b :: bs).take (8192 - got.length)) r
    else if got.take 4 = Auth.magic then .tunnel got rx
    else .web [] rx
termination_by _ rx => rx.length

/-- Buffers of a web connection: the number of 4096-byte request buffers allocated for it and not freed, and the unread bytes of the current
one (`c->meta`). See src/app/webser.c:108-133, 438-463. -/
structure Keep where
  live : Nat
  buf : List UInt8
deriving Repr, DecidableEq

/-- `webser_start` (src/app/webser.c:438-463): `meta_alloc(&c->meta, 4096)` overwrites the pointer (src/common/meta.c:3-13). -/
def keepStart (k : Keep) : Keep := ⟨k.live + 1, []⟩

/-- `webser_keepalive` (src/app/webser.c:108-133): moves the unread bytes to the front and calls `webser_start`. `got` are the bytes that were
received during the request and not consumed by it. -/
def keepalive (k : Keep) (got : List UInt8) : Keep := keepStart { k with buf := got }

/-- Closing: `net_free_direct` frees the current buffer (src/common/net.c:188-191). -/
def keepClose (k : Keep) : Nat := k.live - 1

/-- `sizeof(meta_t)`. See src/common/meta.h:10-18. -/
def metan : Nat := 40

/-- Whether a request body of `n` bytes gets a buffer (src/http/http_req.c:321-333): the limits, and the largest size class of the pool. -/
def bodyAccepted (n : Int) : Bool := decide (0 ≤ n ∧ n ≤ 10 * 1024 * 1024) && (n == 0 || (Mem.pick (metan + n)).isSome)

end Verif.Web
