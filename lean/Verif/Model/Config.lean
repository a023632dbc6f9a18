import Verif.Model.CJson
import Verif.Model.Auth
/-
Reading the configuration, the ports that are served because of it, and the file of keys: src/common/config.c, src/common/listen.c,
src/app/tls_tunnel_s.c:340-389 and the accessors of src/common/cJSON.c.
-/
namespace Verif.Config
open Verif.CJson

/-- Undefined behaviour that start-up can run into. See src/common/config.c:5-143. -/
inductive Fault where
  | null    -- a NULL pointer is read
  | bounds  -- an access outside an array
  | parse   -- the JSON parser leaves its buffer (`Verif.CJson.Err`)
deriving DecidableEq, Repr

/-- `tolower` in the C locale, as used by `case_insensitive_strcmp` (src/common/cJSON.c:145). -/
def lower (b : UInt8) : UInt8 := if 0x41 ≤ b ∧ b ≤ 0x5A then b + 0x20 else b

/-- The byte a C string has at its front: its terminator if nothing is left. See src/common/cJSON.c:133-154. -/
def front : List UInt8 → UInt8
  | [] => 0
  | b :: _ => b

/-- `case_insensitive_strcmp(...) == 0` (src/common/cJSON.c:133-154) of two C strings, given without their terminators. -/
def same (a b : List UInt8) : Bool :=
  if lower (front a) = lower (front b) then
    if front a = 0 then true
    else
      match a with
      | [] => true
      | _ :: a => same a (b.drop 1)
  else false

/-- `cJSON_GetObjectItem` (src/common/cJSON.c:1880-1915): the first member with the name, in any case. The items of an array have no names;
other values have no children. -/
def item (root : J Int) (name : List UInt8) : Option (J Int) :=
  match root with
  | .obj l => (l.find? fun m => same name m.1).map Prod.snd
  | _ => none

/-- `valueint`: the parameter `V` of the parser is instantiated with it. It is set by `parse_number` (src/common/cJSON.c:361-379) and, to 1, for
`true` (1338); items are created zeroed (src/common/cJSON.c:241-250). -/
def valueint : J Int → Int
  | .num v => v
  | .bool true => 1
  | _ => 0

/-- The children of an item, which is what `cJSON_GetArraySize` counts and `cJSON_GetArrayItem` returns (src/common/cJSON.c:1828-1878). -/
def children : J Int → List (J Int)
  | .arr xs => xs
  | .obj l => l.map Prod.snd
  | _ => []

/-- Conversion to `unsigned short` (src/common/config.h:21, 25, 26, 33, 34). -/
def ushort (v : Int) : Nat := (v % 65536).toNat

/-- The C string after `strncpy(dst, cJSON_GetStringValue(item), cap)` into a zeroed array of `cap + 1` bytes (src/common/config.c:26 and
others; src/common/cJSON.c:99-107). Without an item nothing is copied; a value that is no string gives a NULL pointer. -/
def text (cap : Nat) : Option (J Int) → Except Fault (List UInt8)
  | none => .ok []
  | some (.str s) => .ok ((s.takeWhile (· ≠ 0)).take cap)
  | some _ => .error .null

/-- Storing the ports (src/common/config.c:73-80) in a zeroed array of `L_OPEN_PORT_MAX` = 64 (src/common/macro.h:66). -/
def ports : Option (J Int) → Except Fault (List Nat)
  | none => .ok (List.replicate 64 0)
  | some j =>
    if 64 < (children j).length then .error .bounds
    else .ok ((children j).map (fun x => ushort (valueint x)) ++ List.replicate (64 - (children j).length) 0)

/-- `config_t` (src/common/config.h:9-38). Texts are given without terminator. `s5_mode` is an enumeration; it is only compared. -/
structure Cfg where
  daemon : Int := 0
  process : Int := 0
  level : Int := 0
  crt : List UInt8 := []
  key : List UInt8 := []
  mode : Int := 0
  servPort : Nat := 0
  authPath : List UInt8 := []
  gw : List UInt8 := []
  localPort : Nat := 0
  localServPort : Nat := 0
  localServIp : List UInt8 := []
  localAuth : List UInt8 := []
  httpNum : Nat := 0
  httpsNum : Nat := 0
  httpArr : List Nat := List.replicate 64 0
  httpsArr : List Nat := List.replicate 64 0
  home : List UInt8 := []
  index : List UInt8 := []
deriving DecidableEq, Repr

/-- The configuration before the file is read (src/common/config.c:110-111). -/
def initial : Cfg := { level := 0xff }

/-- The bytes of a name in the source. See src/common/config.c:5-102. -/
def nm (s : String) : List UInt8 := s.toUTF8.toList

/-- `if (item) field = item->valueint` (src/common/config.c:12-17 and others). -/
def number (old : Int) : Option (J Int) → Int
  | none => old
  | some j => valueint j

/-- The same for the ports (src/common/config.c:39-40, 55-58). -/
def port (old : Nat) : Option (J Int) → Nat
  | none => old
  | some j => ushort (valueint j)

/-- `cJSON_GetArraySize` of an item that may be missing (src/common/config.c:86, 90). -/
def size : Option (J Int) → Nat
  | none => 0
  | some j => (children j).length

/-- `config_parse` after successful parsing (src/common/config.c:9-95). -/
def fill (root : J Int) : Except Fault Cfg := do
  let crt ← text 256 (item root (nm "ssl_crt_path"))
  let key ← text 256 (item root (nm "ssl_key_path"))
  let authPath ← text 256 (item root (nm "s5_serv_auth_path"))
  let gw ← text 31 (item root (nm "s5_serv_gw"))
  let localServIp ← text 16 (item root (nm "s5_local_serv_ip"))
  let localAuth ← text 32 (item root (nm "s5_local_auth"))
  let httpArr ← ports (item root (nm "http_arr"))
  let httpsArr ← ports (item root (nm "https_arr"))
  let home ← text 256 (item root (nm "http_home"))
  let index ← text 256 (item root (nm "http_index"))
  pure {
    daemon := number 0 (item root (nm "sys_daemon"))
    process := number 0 (item root (nm "sys_process"))
    level := number 0xff (item root (nm "sys_log_level"))
    crt := crt
    key := key
    mode := number 0 (item root (nm "s5_mode"))
    servPort := port 0 (item root (nm "s5_serv_port"))
    authPath := authPath
    gw := gw
    localPort := port 0 (item root (nm "s5_local_port"))
    localServPort := port 0 (item root (nm "s5_local_serv_port"))
    localServIp := localServIp
    localAuth := localAuth
    httpNum := size (item root (nm "http_arr"))
    httpsNum := size (item root (nm "https_arr"))
    httpArr := httpArr
    httpsArr := httpsArr
    home := home
    index := index }

/-- `config_parse` (src/common/config.c:5-102) on a C string. A text that is not accepted leaves the configuration as it is. -/
def parseText (strtod : List UInt8 → Nat × Int) (s : List UInt8) : Except Fault Cfg :=
  match CJson.parse strtod s with
  | .ok (root, _) => fill root
  | .error .reject => .ok initial
  | .error _ => .error .parse

/-- `read(fd, buf + off, count)` on a file: `rd off` is how many bytes the system is willing to return at that offset, or an error.
See src/common/config.c:109-143. -/
def readAt (file : List UInt8) (rd : Nat → Option Nat) (off count : Nat) : Option (List UInt8) :=
  (rd off).map fun k => ((file.drop off).take count).take k

/-- The loop of `config_init` (src/common/config.c:129-133), for a file whose size was `fsz`: `got` are the bytes read so far. An error or the
end of the file only leaves the loop. -/
def readLoop (file : List UInt8) (rd : Nat → Option Nat) (fsz : Nat) (got : List UInt8) : List UInt8 :=
  if _h : got.length < fsz then
    match readAt file rd got.length (fsz + 1 - got.length) with
    | none => got
    | some [] => got
    | some (b :: bs) => readLoop file rd fsz (got ++ b :: bs)
  else got
termination_by fsz - got.length
decreasing_by simp; omega

/-- The C string in the zeroed buffer of `n` bytes that starts with `got`; without a terminator the parser reads on. See src/common/config.c:109-143. -/
def cstring (n : Nat) (got : List UInt8) : Except Fault (List UInt8) :=
  if n ≤ (got.takeWhile (· ≠ 0)).length then .error .bounds else .ok (got.takeWhile (· ≠ 0))

/-- `config_init` (src/common/config.c:109-143): `stat` is the size found, if any, and `file` the contents when it is opened, if it can be. The
function always returns 0. Simplifications: the allocation succeeds; sizes fit in an `int`. -/
def init (strtod : List UInt8 → Nat × Int) (stat : Option Nat) (file : Option (List UInt8)) (rd : Nat → Option Nat) : Except Fault Cfg :=
  match stat, file with
  | some fsz, some f =>
    match cstring (fsz + 1) (readLoop f rd fsz []) with
    | .error e => .error e
    | .ok s => parseText strtod s
  | _, _ => .ok initial

/-! ### Listening -/

/-- The functions that take a new connection (src/common/listen.c:64, 66, 70, 73). -/
inductive Handler where
  | tunnelC
  | tunnelS
  | web
  | webSsl
deriving DecidableEq, Repr

/-- An entry of `g_listens` in use (src/common/listen.h:10-19). -/
structure Entry where
  port : Nat
  cb : Handler
  ssl : Bool
deriving DecidableEq, Repr

/-- `listen_add` (src/common/listen.c:10-23): the first free entry is taken; if there is none the result -1 is not looked at by the caller. -/
def listenAdd : List (Option Entry) → Entry → List (Option Entry)
  | [], _ => []
  | none :: t, e => some e :: t
  | some x :: t, e => some x :: listenAdd t e

/-- Reading `arr[i]` for all `i < n` (src/common/listen.c:69-73). -/
def firstPorts (n : Nat) (arr : List Nat) : Except Fault (List Nat) :=
  if arr.length < n then .error .bounds else .ok (arr.take n)

/-- `listen_init` up to `listen_start` (src/common/listen.c:61-73) with the empty table of eight entries (src/common/listen.c:8). -/
def listenTable (c : Cfg) : Except Fault (List (Option Entry)) := do
  let http ← firstPorts c.httpNum c.httpArr
  let https ← firstPorts c.httpsNum c.httpsArr
  let t0 : List (Option Entry) := List.replicate 8 none
  let t1 :=
    if c.mode = 1 then listenAdd t0 ⟨c.localPort, .tunnelC, false⟩
    else if c.mode = 2 then listenAdd t0 ⟨c.servPort, .tunnelS, true⟩
    else t0
  let t2 := http.foldl (fun t p => listenAdd t ⟨p, .web, false⟩) t1
  pure (https.foldl (fun t p => listenAdd t ⟨p, .webSsl, true⟩) t2)

/-- `listen_start` (src/common/listen.c:50-58): `sys p` says whether a socket could be bound to `p` and listens (25-48). Result: whether start-up
goes on, and the entries that listen. -/
def listenStart (sys : Nat → Bool) : List (Option Entry) → Bool × List Entry
  | [] => (true, [])
  | none :: t => listenStart sys t
  | some e :: t =>
    if sys e.port then ((listenStart sys t).1, e :: (listenStart sys t).2) else (false, [])

/-- `listen_init` (src/common/listen.c:60-77). -/
def listenInit (sys : Nat → Bool) (c : Cfg) : Except Fault (Bool × List Entry) :=
  match listenTable c with
  | .error e => .error e
  | .ok t => .ok (listenStart sys t)

/-! ### The file of keys -/

/-- `TLS_TUNNEL_AUTH_FILE_MAX` (src/app/tls_tunnel_s.c:8). -/
def authMax : Nat := 4096

/-- The keys handed to `ezac_add` (src/app/tls_tunnel_s.c:340-353): the strings of the outermost array up to a NUL. A child that is no string
gives a NULL pointer to `strlen`. -/
def keyStrings : List (J Int) → Except Fault (List (List UInt8))
  | [] => .ok []
  | .str s :: t =>
    match keyStrings t with
    | .error e => .error e
    | .ok ks => .ok (s.takeWhile (· ≠ 0) :: ks)
  | _ :: _ => .error .null

/-- `tls_tunnel_s_auth_fread` and `tls_tunnel_s_auth_fparse` (src/app/tls_tunnel_s.c:340-364): one `read` of at most 4096 bytes into a
zeroed block that is larger (the pool rounds up and clears, src/common/mem.c:134-178), then the parser. `none`: start-up fails because the file cannot
be opened or read. A text that is not accepted gives no keys and is no failure. -/
def authKeys (strtod : List UInt8 → Nat × Int) (file : Option (List UInt8)) (rd : Nat → Option Nat) : Except Fault (Option (List (List UInt8))) :=
  match file with
  | none => .ok none
  | some f =>
    match readAt f rd 0 authMax with
    | none => .ok none
    | some b =>
      match CJson.parse strtod (b.takeWhile (· ≠ 0)) with
      | .ok (root, _) =>
        match keyStrings (children root) with
        | .error e => .error e
        | .ok ks => .ok (some ks)
      | .error .reject => .ok (some [])
      | .error _ => .error .parse

end Verif.Config
