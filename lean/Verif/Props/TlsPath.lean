import Verif.Props.TlsClient
import Verif.Props.TlsServe
/-
C91 with TLS between the two hosts: the sessions of `Model/TlsClient`, `Model/TlsServe` and `Model/TlsRelay` together.
-/
namespace Verif.TlsPath
open Verif Verif.Spec.TlsServe Verif.Spec.TlsClient
open Verif.Serve (script established)

variable {key : List UInt8} {admit : List UInt8 → Bool}

/-- C91 on top of TLS: a local program that waits for the answers, the tunnel client (its history `es`, then its relay `rs`), the tunnel server (`es'`, then `rs'`) and the
destination. The network passes on what the TLS connections take, in order (`n1`, `n2`, `n3`: what has arrived of it so far, in any records; the header is a record of its own).
Then, for all waits of both TLS layers and all orders of events: the destination is the one asked for; it gets the beginning of the program's data; the program gets the beginning
of both answers and what the destination sent; in order and unaltered. Missing: handshakes of the server that wait for writability, a header or a reply that has to wait
(`c102_echo_counterexample`, `c102_client_echo_counterexample`), reads that wait for writing (after which the process may crash, `c102_null_call_counterexample`). -/
theorem c91_tls_partial (now : Bool) (src : List TlsRelay.Rd) (es : List TlsClient.Ev) (c : TlsClient.C) (hc : TlsClient.run key (TlsClient.init now src) es = c)
    (hw : HeaderAtOnce key (TlsClient.init now src) es) (hp : c.phase = .relay)
    (srcA : List TlsRelay.Rd) (dstA dstB : List TlsRelay.Wr) (rs : List TlsRelay.Ev) (r : TlsRelay.R) (hr : TlsRelay.run (TlsClient.relay c srcA dstA dstB) rs = some r)
    (v : UInt8) (ms : List UInt8) (rsv : UInt8) (h : S5Spec.Host) (port : Nat) (data : List UInt8)
    (hm : 1 ≤ ms.length ∧ ms.length ≤ 255) (hh : S5Spec.HostOk h) (ha : admit (header key) = true)
    (hsrc : Spec.TlsRelay.streamOf src = S5Spec.encodeGreeting v ms ++ S5Spec.encodeReq 5 1 rsv h port ++ data)
    (H G R D : List (List UInt8)) (hH : H.flatten.length = 36) (hH0 : [] ∉ H) (hG : G.flatten = S5Spec.encodeGreeting v ms) (hG0 : [] ∉ G)
    (hR : R.flatten = S5Spec.encodeReq 5 1 rsv h port) (hR0 : [] ∉ R) (n1 : (H ++ G ++ R ++ D).flatten <+: c.wire ++ r.b.out)
    (es' : List TlsServe.Ev) (l : List (List UInt8 × Nat)) (s : TlsServe.C) (hs : playT admit (script H G R D) TlsServe.init es' = some (l, s))
    (hk : HandshakeReads admit TlsServe.init es') (hr1 : ReplyAtOnce admit TlsServe.init es') (hp' : s.ses.phase = .relay)
    (srcA' : List TlsRelay.Rd) (dstA' : List TlsRelay.Wr) (srcB' : List TlsRelay.Rd) (dstB' : List TlsRelay.Wr) (rs' : List TlsRelay.Ev) (r' : TlsRelay.R)
    (hr' : TlsRelay.run (TlsRelay.start false s.t [] [] srcA' dstA' srcB' dstB') rs' = some r')
    (n2 : Spec.TlsRelay.streamOf srcA' <+: s.ses.up ++ s.ses.sock.flatten ++ (l.map (·.1)).flatten)
    (n3 : Spec.TlsRelay.streamOf srcA <+: s.ses.wire ++ r'.b.out) :
    r'.a.out <+: data ∧ ∃ ip, r.a.out <+: [5, 0] ++ established (S5.wanted h port) ip ++ Spec.TlsRelay.streamOf srcB' := by
  obtain ⟨k1, k2⟩ := TlsClient.c102_client_session_partial now src es c hc hw hp srcA dstA dstB rs r hr
  have hn : (H ++ G ++ R ++ D).flatten <+: header key ++ Spec.TlsRelay.streamOf src :=
    n1.trans (by rw [← k1, List.append_assoc]; exact List.prefix_append _ _)
  have hl : (header key).length = 36 := by simp [header]
  rw [List.flatten_append, List.flatten_append, List.flatten_append, hG, hR, hsrc] at hn
  simp only [List.append_assoc] at hn
  have hH' : H.flatten = header key := by
    obtain ⟨z, hz⟩ := hn
    have := congrArg (List.take 36) hz
    rw [List.append_assoc, List.take_left' hH, List.take_left' hl] at this
    exact this
  have hD : D.flatten <+: data := by
    rw [hH'] at hn
    rwa [List.prefix_append_right_inj, List.prefix_append_right_inj, List.prefix_append_right_inj] at hn
  have hw' := TlsServe.c104_waiting_client_partial H G R D v ms rsv h port hH hH0 (by rw [hH']; exact ha) hm hG hG0 hR hR0 hh es' hk l s hs
  obtain ⟨⟨ip, w1⟩, w2⟩ := hw'.2.2.2.2.2.2 hp'
  have e1 := (TlsServe.play_ses es' _ _ _ _ hs).1
  subst e1
  have o := TlsServe.c104_session_order_partial es' hk hr1 hp' srcA' dstA' srcB' dstB' rs' r' hr'
  refine ⟨?_, ip, ?_⟩
  · have : r'.a.out <+: Spec.TlsRelay.streamOf srcA' := by rw [← o.1, List.append_assoc]; exact List.prefix_append _ _
    refine (this.trans n2).trans ?_
    rw [w2]; exact hD
  · have a1 : r.a.out <+: Spec.TlsRelay.streamOf srcA := by rw [← k2, List.append_assoc]; exact List.prefix_append _ _
    refine (a1.trans n3).trans ?_
    rw [w1, List.prefix_append_right_inj, ← o.2, List.append_assoc]
    exact List.prefix_append _ _

/-- Case: the program sends a greeting, a request and three bytes and gets both answers and two bytes; both handshakes and the reading of the header wait. -/
example :
    let src : List TlsRelay.Rd := [.data 5 [1, 0], .wait false, .data 5 [1, 0, 1, 10, 0, 0, 1, 0, 80], .wait false, .data 1 [2, 3]]
    let es : List TlsClient.Ev := [.report true true, .dispatch, .call .go, .call .waitR, .report true true, .dispatch, .call .go, .call .go]
    let c := TlsClient.run [7] (TlsClient.init false src) es
    let r := TlsRelay.run (TlsClient.relay c [.wait false, .data 5 [0], .data 5 [0, 0, 1, 0, 10, 0, 0, 80, 0, 8, 9]] [.sent 99, .sent 99] [.sent 99, .sent 99, .sent 99]) [.tr, .pr, .tr, .pr]
    let es' := TlsServe.hist ++ [.connected [], .call .go]
    let x := playT (fun _ => true) (script [header [7]] [[5, 1, 0]] [[5, 1, 0, 1, 10, 0, 0, 1, 0, 80]] [[1, 2, 3]]) TlsServe.init
      ((es'.take 8) ++ [.arrive (header [7])] ++ es'.drop 9)
    HeaderAtOnce [7] (TlsClient.init false src) es ∧
    r.map (fun r => (c.wire ++ r.b.out, r.a.out)) =
      some (header [7] ++ [5, 1, 0] ++ [5, 1, 0, 1, 10, 0, 0, 1, 0, 80] ++ [1, 2, 3], [5, 0] ++ [5, 0, 0, 1, 0, 10, 0, 0, 80, 0] ++ [8, 9]) ∧
    x.map (fun x => (x.1, x.2.ses.phase, x.2.ses.wire)) = some ([([1, 2, 3], 12)], .relay, [5, 0] ++ [5, 0, 0, 1, 0, 10, 0, 0, 80, 0]) ∧
    (x.bind fun x => TlsRelay.run (TlsRelay.start false x.2.t [] [] [.data 1 [2, 3]] [.sent 99] [.data 8 [9]] [.sent 99]) [.pr]).map (fun r => (r.a.out, r.b.out)) =
      some ([1, 2, 3], [8, 9]) := by decide +kernel

end Verif.TlsPath
