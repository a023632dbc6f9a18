import Verif.Model.Webser
import Verif.Model.SysTime
/-
Building and sending responses: `webser_rsp_hdrp` and `webser_rsp` (src/app/webser.c:262-338) and the responses of files and API
handlers.
-/
namespace Verif.Web
open Printf

/-- `meta_pdata` of a header text into the first buffer of the chain with more than `strlen(buf)` bytes free, otherwise into a new one
(src/app/webser.c:280-293). A buffer is the list of the bytes in it; all have 4096 bytes. The allocations succeed; their failure is treated
in `Verif.WebSession`. The text is shorter than 1024 bytes, so a new buffer always has room. -/
def hdrPut (text : List UInt8) : List (List UInt8) → List (List UInt8)
  | [] => [text]
  | b :: r => if 4096 - b.length > text.length then (b ++ text) :: r else b :: hdrPut text r

/-- `webser_rsp_hdrp` (src/app/webser.c:265-294) on the formatted text: cut by `vsnprintf(buf, sizeof(buf)-1, …)` with `buf[1024]`, then
added to the chain. -/
def hdrp (chain : List (List UInt8)) (text : List UInt8) : List (List UInt8) := hdrPut (sn 1023 text) chain

/-- The header texts of `webser_rsp` (src/app/webser.c:306-327): status line, Server, Date, Connection, Content-Length, the extra header, the
empty line. `date` is `systime_gmt()`. -/
def hdrTexts (code : Nat) (date : List UInt8) (keep : Bool) (clen : Int) (ext : Option (List UInt8)) : List (List UInt8) :=
  [statusLine code, str "Server: s5\r\n", str "Date: " ++ (date ++ str "\r\n"),
    str "Connection: " ++ ((if keep then str "keep-alive" else str "close") ++ str "\r\n"),
    str "Content-Length: " ++ (d clen ++ str "\r\n")] ++
  (match ext with | none => [] | some e => [e]) ++ [str "\r\n"]

/-- The header chain built by `webser_rsp` (src/app/webser.c:306-327). -/
def hdrChain (code : Nat) (date : List UInt8) (keep : Bool) (clen : Int) (ext : Option (List UInt8)) : List (List UInt8) :=
  (hdrTexts code date keep clen ext).foldl hdrp []

/-- The extra header of a file response, `Content-type: %s\r\n` (src/app/webser.c:382). -/
def typeHdr (t : List UInt8) : List UInt8 := str "Content-type: " ++ (t ++ str "\r\n")

/-- The response to a file request: header chain, then the file (src/app/webser.c:381-383, 298-338, 231-260, 167-210). -/
def fileResponse (st : Stat) (date : List UInt8) (keep : Bool) (ctype file : List UInt8) (sys : List Net.SysTx) (rd : List Nat) : FfOut :=
  respond (hdrChain (fileCode st).1 date keep (fileCode st).2 (some (typeHdr ctype))) file (fileCode st).2 sys rd

/-- The response of an API handler: `webser_rsp` with a payload, `webser_rsp_hdr_send`, `webser_rsp_payload_send_api`
(src/app/webser.c:298-338, 231-260, 142-165). `webser_rsp` copies a payload into one buffer only if it is not empty (302-305). -/
def apiResponse (code : Nat) (date : List UInt8) (keep : Bool) (payload : List UInt8) (sys : List Net.SysTx) : FfOut :=
  let h := Net.sendChainsAll (hdrChain code date keep payload.length none) sys
  match h.rc with
  | .again => ⟨h.wire, .waiting⟩
  | .fail => ⟨h.wire, .closed⟩
  | .done =>
    if payload = [] then ⟨h.wire, .done⟩
    else
      let p := Net.sendChainsAll [payload] h.rest
      match p.rc with
      | .again => ⟨h.wire ++ p.wire, .waiting⟩
      | .fail => ⟨h.wire ++ p.wire, .closed⟩
      | .done => ⟨h.wire ++ p.wire, .done⟩

/-- Payload of the response of handler 0 (`wapi_echo_get`) and handler 1 (`wapi_echo_post`) (src/app/web_api.c:5-13). -/
def echoPayload (handler : Nat) (date body : List UInt8) : List UInt8 := if handler = 0 then date else body

end Verif.Web
