import Verif.Proofs.WebSend
/-
C103: a response that has to wait is continued when the connection can take more.
-/
namespace Verif.Props.WebSend
open Verif Verif.WebSend Verif.Spec.WebSend
open Verif.TlsRelay (Wr)

/-- A header of two buffers. -/
def exHdr : List (List UInt8) := [[72, 84], [13, 10]]

/-- TLS callbacks and interest when the request was read (`ssl_read` succeeded): reading is registered. -/
def exT : Ssl.S := ⟨⟨true, false⟩, some (.app 7), none, ⟨false, false⟩, none, none⟩

/-- A small file, sent over TLS: the header's second buffer waits to read, the file waits to write. -/
def exW : W := start true exT exHdr (.file [1, 2, 3] 3) true [2, 2] [.sent 20000, .wait true, .sent 20000, .wait false, .sent 20000, .wait false, .sent 20000] []

/-- Whatever happens on a connection, with or without TLS, and whatever is registered when the response starts: what the connection took is at any time a beginning of the
response (header, then body), and a response that ends in order was taken whole, when the file has the announced size. -/
theorem c103_order (tls : Bool) (t0 : Ssl.S) (hdr : List (List UInt8)) (body : Body) (mem : Bool) (rd : List Nat) (dst : List Wr) (peek : List Peek)
    (es : List Ev) (r : W) (h : run (start tls t0 hdr body mem rd dst peek) es = some r) :
    r.out <+: whole hdr body ∧ (r.fin = some .done → Sized body → r.out = whole hdr body) :=
  (run_ok es (start_ok ..) h).2

example : (run exW [.r, .w]).map (fun r => (r.out, r.fin, r.t.opt, r.t.wcb, r.ff.buf)) =
    some ([72, 84, 13, 10, 1, 2], none, ⟨false, true⟩, some (.app 2), [3]) := by decide +kernel
example : (run exW [.r, .w, .w]).map (fun r => (r.out, r.fin)) = some ([72, 84, 13, 10, 1, 2, 3], some .done) := by decide +kernel

/-- Over TLS, whatever is registered when the response starts and for every sequence of events that can be reported: no event calls a handler that is not there, and while
the connection is open and the response is not finished, something is registered that continues it. -/
theorem c103_tls_progress (t0 : Ssl.S) (hdr : List (List UInt8)) (body : Body) (mem : Bool) (rd : List Nat) (dst : List Wr) (peek : List Peek)
    (es : List Ev) (hp : Possible (start true t0 hdr body mem rd dst peek) es) :
    ∃ r, run (start true t0 hdr body mem rd dst peek) es = some r ∧ (r.fin = none → Continues r) := by
  obtain ⟨r, h1, h2⟩ := run_going es (start_going t0 hdr body mem rd dst peek) hp
  exact ⟨r, h1, h2.continues⟩

example : Possible exW [.r, .w, .w] := by
  obtain ⟨w1, h1⟩ := Option.isSome_iff_exists.mp (show (step exW .r).isSome = true by decide +kernel)
  have e1 : (step exW .r).all (fun w => w.t.opt.w) = true := by decide +kernel
  obtain ⟨w2, h2⟩ := Option.isSome_iff_exists.mp (show ((step exW .r).bind (step · .w)).isSome = true by decide +kernel)
  have e2 : ((step exW .r).bind (step · .w)).all (fun w => w.t.opt.w) = true := by decide +kernel
  rw [h2] at e2
  rw [h1] at e1 h2
  refine ⟨show exW.t.opt.r = true by decide +kernel, fun v1 k1 => ?_⟩
  cases h1.symm.trans k1
  refine ⟨e1, fun v2 k2 => ?_⟩
  cases h2.symm.trans k2
  exact ⟨e2, fun _ _ => trivial⟩
example : Continues exW := by
  right; exact ⟨by decide +kernel, by decide +kernel, by decide +kernel, 1, by decide +kernel, by decide, by decide⟩

/-- Over TLS a response is delivered: if the connection takes a buffer whole or has to wait (to read or to write, any number of times) and never fails, the file has the announced
size and can be read, and memory is available, then after as many events as the connection had to wait - whichever of the events that can be reported they are, the timer apart -
the response has ended in order and was taken whole. -/
theorem c103_tls_delivers (t0 : Ssl.S) (hdr : List (List UInt8)) (body : Body) (rd : List Nat) (dst : List Wr) (peek : List Peek)
    (es : List Ev) (hp : Possible (start true t0 hdr body true rd dst peek) es) (ht : Ev.timeout ∉ es)
    (hd : WholeOrWait dst) (hn : (whole hdr body).length ≤ sents dst) (hs : Sized body)
    (hr : ∀ f n, body = .file f n → (∀ k ∈ rd, 0 < k) ∧ f.length ≤ rd.length) (hw : waits dst ≤ es.length) :
    ∃ r, run (start true t0 hdr body true rd dst peek) es = some r ∧ r.fin = some .done ∧ r.out = whole hdr body := by
  have hm := start_live true t0 peek hd hn hs hr
  have hg := start_going t0 hdr body true rd dst peek
  obtain ⟨r, h1, h2⟩ := run_live es hg hp ht (by
    rcases hm with hm | ⟨m1, m2, m3⟩
    · exact .inl hm
    · exact .inr ⟨m1, m2, Nat.lt_of_lt_of_le m3 hw⟩)
  exact ⟨r, h1, h2, (run_ok es hg.2.1 h1).2.2 h2 hs⟩

example : WholeOrWait [.sent 20000, .wait true, .sent 20000, .wait false, .sent 20000, .wait false, .sent 20000] ∧ waits [.wait true, .wait false, .wait false] = 3 := by
  refine ⟨?_, rfl⟩
  intro x hx
  simp only [List.mem_cons, List.not_mem_nil, or_false] at hx
  rcases hx with rfl | rfl | rfl | rfl | rfl | rfl | rfl
  · exact .inr ⟨_, rfl, by omega⟩
  · exact .inl ⟨_, rfl⟩
  · exact .inr ⟨_, rfl, by omega⟩
  · exact .inl ⟨_, rfl⟩
  · exact .inr ⟨_, rfl, by omega⟩
  · exact .inl ⟨_, rfl⟩
  · exact .inr ⟨_, rfl, by omega⟩

/-- Without TLS the claim holds only of responses the kernel takes at once: if no send has to wait, the response is taken whole before anything else happens. -/
theorem c103_plain_whole_partial (hdr : List (List UInt8)) (body : Body) (rd : List Nat) (dst : List Wr) (peek : List Peek)
    (hd : WholeOrWait dst) (h0 : waits dst = 0) (hn : (whole hdr body).length ≤ sents dst) (hs : Sized body)
    (hr : ∀ f n, body = .file f n → (∀ k ∈ rd, 0 < k) ∧ f.length ≤ rd.length) :
    (start false plainT hdr body true rd dst peek).fin = some .done ∧ (start false plainT hdr body true rd dst peek).out = whole hdr body := by
  have hm := start_live false plainT peek hd hn hs hr
  have hf : (start false plainT hdr body true rd dst peek).fin = some .done := by
    rcases hm with hm | ⟨-, -, m3⟩
    · exact hm
    · omega
  exact ⟨hf, (start_ok ..).2.2 hf hs⟩

example : ((start false plainT exHdr (.file [1, 2, 3] 3) true [2, 2] [.sent 20000, .sent 20000, .sent 20000, .sent 20000] []).out,
    (start false plainT exHdr (.file [1, 2, 3] 3) true [2, 2] [.sent 20000, .sent 20000, .sent 20000, .sent 20000] []).fin) =
    ([72, 84, 13, 10, 1, 2, 3], some .done) := by decide +kernel

/-- Without TLS a response that has to wait is never continued: for every header, body, behaviour of the connection and of `read`, once the first invocation has ended with
something left to send, no sequence of events that can be reported makes the connection take another byte, although it could (`dst` is unchanged); the response never ends in
order, and its timer closes the connection. Only readability is registered (src/common/net.c:168), and `webser_try_read` only looks whether the peer has closed. -/
theorem c103_plain_stalls_counterexample (hdr : List (List UInt8)) (body : Body) (mem : Bool) (rd : List Nat) (dst : List Wr) (peek : List Peek)
    (h : (start false plainT hdr body mem rd dst peek).fin = none) (es : List Ev) (hp : Possible (start false plainT hdr body mem rd dst peek) es) :
    ∃ r, run (start false plainT hdr body mem rd dst peek) es = some r ∧
      r.out = (start false plainT hdr body mem rd dst peek).out ∧ r.out.length < (whole hdr body).length ∧
      r.dst = (start false plainT hdr body mem rd dst peek).dst ∧ r.fin ≠ some .done ∧ (Ev.timeout ∈ es → r.fin ≠ none) := by
  obtain ⟨r, r1, -, r3, r4, r5, r6⟩ := run_stuck es (start_stuck hdr body mem rd dst peek) (by rw [h]; simp) hp
  exact ⟨r, r1, r3, by rw [r3]; exact ((start_ok ..).1 h).short, r4, r5, r6⟩

/-- Such a response exists for every header and body that are not empty: the first send has to wait. -/
theorem c103_plain_waits_counterexample (hdr : List (List UInt8)) (hh : hdr.flatten ≠ []) (body : Body) (mem : Bool) (rd : List Nat) (x : Bool) (dst : List Wr) (peek : List Peek) :
    (start false plainT hdr body mem rd (.wait x :: dst) peek).fin = none ∧ (start false plainT hdr body mem rd (.wait x :: dst) peek).out = [] ∧
    (start false plainT hdr body mem rd (.wait x :: dst) peek).t.opt.w = false := by
  have hu : ∃ p y q, Net.firstUnsent hdr = some (p, y, q) := by
    cases e : Net.firstUnsent hdr with
    | none => exact absurd (Net.firstUnsent_none.mp e) hh
    | some z => exact ⟨_, _, _, rfl⟩
  obtain ⟨p, y, q, hu⟩ := hu
  have hk := start_stuck hdr body mem rd (.wait x :: dst) peek
  have : ∀ w : W, w.chain = hdr → w.dst = .wait x :: dst → hdrCall w = onWrite { w with dst := dst } (if x then .wantR else .wantW) := by
    intro w h1 h2
    subst h1
    have hc : chainLoop w = (onWrite { w with dst := dst } (if x then .wantR else .wantW), .again) := by
      rw [chainLoop.eq_def]
      split
      · rename_i e; rw [hu] at e; cases e
      · split <;> rename_i e <;> rw [h2] at e <;> cases e
        rfl
    unfold hdrCall
    rw [hc]
  refine ⟨?_, ?_, by rw [hk.1]⟩
  · unfold start; rw [this _ rfl rfl]; exact (onWrite_keep _ _).2.2.2.2.2.1
  · unfold start; rw [this _ rfl rfl]; exact (onWrite_keep _ _).2.2.2.1

/-- A file of 40000 bytes on a plain connection that takes the header and the first part, then has to wait: the client gets 4 + 16344 bytes. -/
example : (start false plainT exHdr (.file (List.replicate 40000 7) 40000) true [16344, 16344, 16344] [.sent 20000, .sent 20000, .sent 20000, .wait false, .sent 20000] []).out.length = 16348 ∧
    (run (start false plainT exHdr (.file (List.replicate 40000 7) 40000) true [16344, 16344, 16344] [.sent 20000, .sent 20000, .sent 20000, .wait false, .sent 20000] [])
      [.r, .timeout]).map (fun r => (r.out.length, r.fin)) = some (16348, some .expired) := by decide +kernel

end Verif.Props.WebSend
