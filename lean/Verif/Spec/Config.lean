import Verif.Model.Config
/-
What the author of a configuration file means, without reference to how it is read.
-/
namespace Verif.Config.Spec
open Verif.CJson

/-- The settings of the program, as a user thinks of them. -/
structure Settings where
  daemon : Int
  process : Int
  level : Int
  crt : List UInt8
  key : List UInt8
  mode : Int
  servPort : Nat
  authPath : List UInt8
  gw : List UInt8
  localPort : Nat
  localServPort : Nat
  localServIp : List UInt8
  localAuth : List UInt8
  http : List Nat
  https : List Nat
  home : List UInt8
  index : List UInt8

/-- Upper case of an ASCII letter. -/
def up (b : UInt8) : UInt8 := if b ∈ "abcdefghijklmnopqrstuvwxyz".toUTF8.toList then b - 0x20 else b

/-- The two names differ at most in the case of letters. -/
def Alike (a b : List UInt8) : Prop := a.map up = b.map up

/-- The file says nothing about `k`. -/
def Silent (l : List (List UInt8 × J Int)) (k : String) : Prop := ∀ m ∈ l, ¬ Alike k.toUTF8.toList m.1

/-- The file gives the value `j` to `k`, and says nothing else about it. -/
def Says (l : List (List UInt8 × J Int)) (k : String) (j : J Int) : Prop :=
  ∃ pre post, l = pre ++ (k.toUTF8.toList, j) :: post ∧ Silent pre k ∧ Silent post k

/-- A number, `d` if it is not given; `true` and `false` stand for 1 and 0. -/
def Num (l : List (List UInt8 × J Int)) (k : String) (d v : Int) : Prop :=
  (Silent l k ∧ v = d) ∨ Says l k (.num v) ∨ (Says l k (.bool true) ∧ v = 1) ∨ (Says l k (.bool false) ∧ v = 0)

/-- A port, 0 if it is not given. -/
def Port (l : List (List UInt8 × J Int)) (k : String) (p : Nat) : Prop := (Silent l k ∧ p = 0) ∨ Says l k (.num p)

/-- A text, empty if it is not given. -/
def Text (l : List (List UInt8 × J Int)) (k : String) (t : List UInt8) : Prop := (Silent l k ∧ t = []) ∨ Says l k (.str t)

/-- A list of ports, empty if it is not given. -/
def Ports (l : List (List UInt8 × J Int)) (k : String) (ps : List Nat) : Prop :=
  (Silent l k ∧ ps = []) ∨ Says l k (.arr (ps.map fun p : Nat => J.num (p : Int)))

/-- The members `l` of the outermost object spell the settings `s`. Any order and further members are allowed. -/
structure Writes (l : List (List UInt8 × J Int)) (s : Settings) : Prop where
  names : ∀ m ∈ l, 0 ∉ m.1
  daemon : Num l "sys_daemon" 0 s.daemon
  process : Num l "sys_process" 0 s.process
  level : Num l "sys_log_level" 255 s.level
  crt : Text l "ssl_crt_path" s.crt
  key : Text l "ssl_key_path" s.key
  mode : Num l "s5_mode" 0 s.mode
  servPort : Port l "s5_serv_port" s.servPort
  authPath : Text l "s5_serv_auth_path" s.authPath
  gw : Text l "s5_serv_gw" s.gw
  localPort : Port l "s5_local_port" s.localPort
  localServPort : Port l "s5_local_serv_port" s.localServPort
  localServIp : Text l "s5_local_serv_ip" s.localServIp
  localAuth : Text l "s5_local_auth" s.localAuth
  http : Ports l "http_arr" s.http
  https : Ports l "https_arr" s.https
  home : Text l "http_home" s.home
  index : Text l "http_index" s.index

/-- A text without NUL of at most `n` bytes. -/
def Fit (n : Nat) (t : List UInt8) : Prop := 0 ∉ t ∧ t.length ≤ n

/-- Settings the program has room for. -/
structure Fits (s : Settings) : Prop where
  crt : Fit 256 s.crt
  key : Fit 256 s.key
  servPort : s.servPort < 65536
  authPath : Fit 256 s.authPath
  gw : Fit 31 s.gw
  localPort : s.localPort < 65536
  localServPort : s.localServPort < 65536
  localServIp : Fit 16 s.localServIp
  localAuth : Fit 32 s.localAuth
  http : s.http.length ≤ 64 ∧ ∀ p ∈ s.http, p < 65536
  https : s.https.length ≤ 64 ∧ ∀ p ∈ s.https, p < 65536
  home : Fit 256 s.home
  index : Fit 256 s.index

/-- The configuration in force holds the settings. -/
structure Holds (c : Cfg) (s : Settings) : Prop where
  daemon : c.daemon = s.daemon
  process : c.process = s.process
  level : c.level = s.level
  crt : c.crt = s.crt
  key : c.key = s.key
  mode : c.mode = s.mode
  servPort : c.servPort = s.servPort
  authPath : c.authPath = s.authPath
  gw : c.gw = s.gw
  localPort : c.localPort = s.localPort
  localServPort : c.localServPort = s.localServPort
  localServIp : c.localServIp = s.localServIp
  localAuth : c.localAuth = s.localAuth
  http : c.httpNum = s.http.length ∧ c.httpArr.take c.httpNum = s.http
  https : c.httpsNum = s.https.length ∧ c.httpsArr.take c.httpsNum = s.https
  home : c.home = s.home
  index : c.index = s.index

/-- What has to listen for the settings: the tunnel's end of this host, plain web ports, and web ports with TLS. -/
def wanted (s : Settings) : List Entry :=
  (if s.mode = 1 then [⟨s.localPort, .tunnelC, false⟩] else if s.mode = 2 then [⟨s.servPort, .tunnelS, true⟩] else []) ++
    s.http.map (fun p => ⟨p, .web, false⟩) ++ s.https.map (fun p => ⟨p, .webSsl, true⟩)

end Verif.Config.Spec
