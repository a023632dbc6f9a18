import Verif.Model.WebConn
import Verif.Spec.HttpReq
import Verif.Spec.Response
import Verif.Spec.Web
import Verif.Spec.WebSend
/-
What a connection of the web server is measured against: what a client asks for, and what it reads.
-/
namespace Verif.Spec.WebConn
open Verif Verif.WebConn Verif.HttpSpec

/-- `epoll` reports only what is in the interest. -/
def Reportable (c : C) : Ev → Prop
  | .arrive _ _ => True
  | .timeout => True
  | .r => match c.ph with
    | .rsp w _ => w.t.opt.r = true
    | _ => c.t.opt.r = true
  | .w => match c.ph with
    | .rsp w _ => w.t.opt.w = true
    | _ => c.t.opt.w = true

/-- The events can happen one after the other. -/
def Possible (k : Nat) (home index : List UInt8) (E : Nat → Env) (c : C) : List Ev → Prop
  | [] => True
  | e :: es => Reportable c e ∧ ∀ c', step k home index E c e = some c' → Possible k home index E c' es

/-- Something is registered that continues what the connection is doing: the reading of a request, by a report of readability, or of writability when TLS waits for that; the
sending of a response (`Spec/WebSend`). -/
def Continues (c : C) : Prop :=
  match c.ph with
  | .req _ => c.t.rcb = some (.app 20) ∧ (c.t.opt.r = true ∨ (c.t.opt.w = true ∧ c.t.wcb = some .rd))
  | .rsp w _ => WebSend.Continues w
  | .gone _ => True

/-- The records that arrive. -/
def records : List Ev → List (UInt8 × List UInt8)
  | [] => []
  | .arrive b bs :: es => (b, bs) :: records es
  | _ :: es => records es

/-- What a client wants: a file, the date (`GET /echo`), its own bytes back (`POST /echo`). -/
inductive Want where
  | file
  | date
  | echo (body : List UInt8)

/-- A request of a client: the head, and what it wants by it. -/
structure Ask where
  head : Head
  want : Want

/-- The body of a request. -/
def Ask.body (a : Ask) : List UInt8 := match a.want with | .echo b => b | _ => []

/-- The ways to cut a request into records that the server understands: the end of the head is in the first record; or the first record is the request line, and the end of the
head is in the second. What follows of the body may be cut anywhere. The buffer holds the head and the part of the body in the record that ends it. -/
def Ask.Sends (a : Ask) (rs : List (List UInt8)) : Prop :=
  ∃ first rest, first ++ rest.flatten = a.body ∧ (a.head.bytes ++ first).length ≤ 4096 ∧
    (rs = (a.head.bytes ++ first) :: rest ∨ rs = a.head.line :: (fieldBytes a.head.fields ++ ([13, 10] ++ first)) :: rest)

/-- Requests and the records in which each of them is sent. -/
def AllSend : List Ask → List (List (UInt8 × List UInt8)) → Prop
  | [], [] => True
  | a :: as, r :: rs => a.Sends (r.map fun x => x.1 :: x.2) ∧ AllSend as rs
  | _, _ => False

/-- `/echo`. -/
def echoPath : List UInt8 := [47, 101, 99, 104, 111]

/-- A name that the server takes for `Content-Length`. -/
def LengthName (n : List UInt8) : Prop := SameName n contentLength ∨ Abbreviates n contentLength

/-- The path of the file that is asked for. -/
def path (home index target : List UInt8) : List UInt8 := home ++ target ++ (if target.getLast? = some 47 then index else [])

/-- A request that the server can answer. All: a valid head (`Head.Ok`). For a file: `GET`, no length, a target of less than 1024 bytes
without `../`, a path with a dot in it that fits, and a file of less than 2 GiB that is there. For the date: `GET /echo` without length. For the echo: `POST /echo` with
exactly one length, which is that of the body, which is not empty and has at most 16344 bytes (see C57). -/
def Ask.Ok (home index : List UInt8) (e : Env) (a : Ask) : Prop :=
  a.head.Ok ∧
  match a.want with
  | .file => SameName a.head.method [71, 69, 84] ∧ (∀ g ∈ a.head.fields, ¬ LengthName g.name) ∧ a.head.target ≠ echoPath ∧
      a.head.target.length < 1024 ∧ ¬ WebSpec.Occurs [46, 46, 47] a.head.target ∧ home.length + a.head.target.length + index.length < 2048 ∧
      46 ∈ path home index a.head.target ∧ (e.content (path home index a.head.target)).length < 2147483648 ∧
      e.stat (path home index a.head.target) = .readable (e.content (path home index a.head.target)).length true
  | .date => SameName a.head.method [71, 69, 84] ∧ (∀ g ∈ a.head.fields, ¬ LengthName g.name) ∧ a.head.target = echoPath
  | .echo b => SameName a.head.method [80, 79, 83, 84] ∧ a.head.target = echoPath ∧ b ≠ [] ∧ b.length ≤ 16344 ∧
      ∃ pre f post, a.head.fields = pre ++ f :: post ∧ SameName f.name contentLength ∧ Digits f.value ∧ decimal f.value = b.length ∧
        ∀ g ∈ pre ++ post, ¬ LengthName g.name

/-- What the client wants to get for a request. -/
def Ask.wanted (home index : List UInt8) (e : Env) (a : Ask) : List UInt8 :=
  match a.want with
  | .file => e.content (path home index a.head.target)
  | .date => e.date
  | .echo b => b

/-- The client asks for keeping the connection: a field `Connection: keep-alive`, as the server recognises it (up to case or abbreviation, see C67). -/
def Ask.keeps (a : Ask) : Prop :=
  ∃ f ∈ a.head.fields, (SameName f.name connection ∨ Abbreviates f.name connection) ∧ (SameName f.value keepAliveText ∨ Abbreviates f.value keepAliveText)

/-- How often a request has to be waited for. -/
def readWaits : List Ssl.Res → Nat
  | [] => 0
  | .wantR :: l => readWaits l + 1
  | .wantW :: l => readWaits l + 1
  | _ :: l => readWaits l

/-- How many records can be read for a request. -/
def reads : List Ssl.Res → Nat
  | [] => 0
  | .ok :: l => reads l + 1
  | _ :: l => reads l

/-- An environment in which a response of `n` bytes of content can be sent: memory is there, every `read` yields something, and TLS takes a buffer whole or has to wait; the
header has less than 8000 bytes. -/
def Able (e : Env) (n : Nat) : Prop :=
  e.mem = true ∧ (∀ x ∈ e.rd, 0 < x) ∧ n ≤ e.rd.length ∧ WebSend.WholeOrWait e.dst ∧ n + 8000 ≤ WebSend.sents e.dst

/-- All waits of the first `n` requests and responses. -/
def allWaits (E : Nat → Env) : Nat → Nat
  | 0 => 0
  | n + 1 => allWaits E n + (readWaits (E n).io + WebSend.waits (E n).dst)

/-- Reading responses from a connection, as many as there are: their codes and bodies, and the bytes behind them. -/
def readAll : Nat → List UInt8 → List (Nat × List UInt8) × List UInt8
  | 0, l => ([], l)
  | n + 1, l =>
    match RspSpec.read l with
    | none => ([], l)
    | some (m, rest) => ((m.code, m.body) :: (readAll n rest).1, (readAll n rest).2)

end Verif.Spec.WebConn
