import Verif.Proofs.Socks5
import Verif.Proofs.NetSend
/-
Properties C01 to C04: SOCKS5 request parsing.
-/
namespace Verif.S5
open Verif Verif.Net Verif.S5Spec

/-- The action a client asked for by naming `h` and `port`. -/
def wanted (h : Host) (port : Nat) : Action :=
  match h with
  | .v4 a b c d => .connect4 [a, b, c, d] (UInt8.ofNat (port / 256)) (UInt8.ofNat (port % 256))
  | .name bs => .resolve bs (UInt8.ofNat (port / 256)) (UInt8.ofNat (port % 256))

/-- C01. A stream that starts with the encoding of a CONNECT request makes the server connect to, or resolve, exactly
the encoded destination, however the stream is cut into receives and whatever follows it. -/
theorem c01_connect_decodes (l : List Rx) (rsv : UInt8) (h : Host) (port : Nat) (tail : List UInt8)
    (hh : HostOk h) (hs : streamOf l = encodeReq 5 1 rsv h port ++ tail) :
    ∃ r, p2Req l = .stopped (.accept r) ∧ cupAddr r = wanted h port := by
  rw [p2Req_eq, hs]
  cases h with
  | v4 a b c d =>
    refine ⟨{ hdr 5 1 rsv 1 0 4 with addr := writeAt (hdr 5 1 rsv 1 TYP_V4 4).addr 0 [a, b, c, d], addrCnt := 4,
                                     port0 := UInt8.ofNat (port / 256), port1 := UInt8.ofNat (port % 256) }, ?_, ?_⟩
    · simp only [encodeReq, encodeHost, encodePort, List.cons_append, List.nil_append]
      rw [feed_hdr, if_pos rfl]
      have hf : Filling (hdr 5 1 rsv 1 TYP_V4 4) 4 := .inl ⟨rfl, rfl⟩
      rw [show a :: b :: c :: d :: UInt8.ofNat (port / 256) :: UInt8.ofNat (port % 256) :: tail =
        [a, b, c, d] ++ UInt8.ofNat (port / 256) :: UInt8.ofNat (port % 256) :: tail from rfl]
      rw [feed_complete hf rfl (by decide) [a, b, c, d] rfl]
      rw [p2End, if_pos (by exact ⟨rfl, rfl, by show (1 : UInt8) ≠ 4; decide⟩)]
      rfl
    · rfl
  | name bs =>
    obtain ⟨hb1, hb2, hb3⟩ := hh
    have hn : (UInt8.ofNat bs.length).toNat = bs.length := by simp; omega
    have hn0 : UInt8.ofNat bs.length ≠ 0 := by
      intro h; rw [h] at hn; simp at hn; omega
    refine ⟨{ hdr 5 1 rsv 3 0 (UInt8.ofNat bs.length) with addr := writeAt P2.init.addr 0 bs, addrCnt := UInt8.ofNat bs.length, port0 := UInt8.ofNat (port / 256), port1 := UInt8.ofNat (port % 256) }, ?_, ?_⟩
    · simp only [encodeReq, encodeHost, encodePort, List.cons_append, List.nil_append, List.append_assoc]
      rw [feed_hdr, if_neg (by decide), if_neg (by decide), if_pos rfl, feed_domainn]
      have hf : Filling (hdr 5 1 rsv 3 TYP_DOMAIN (UInt8.ofNat bs.length)) (UInt8.ofNat bs.length) :=
        .inr (.inr ⟨rfl, rfl⟩)
      rw [feed_complete hf rfl hn0 bs hn.symm]
      rw [p2End, if_pos (by exact ⟨rfl, rfl, by show (3 : UInt8) ≠ 4; decide⟩)]
      rfl
    · have ha : ((3 : UInt8) = IPV4) = False := by simp [IPV4]
      simp only [cupAddr, hdr, ha, if_false, DOMAIN, if_true, wanted]
      have hc : cstr (writeAt P2.init.addr 0 bs) = some bs := by
        rw [writeAt_eq _ _ _ (by simp [P2.init, -List.reduceReplicate]; omega)]
        have : P2.init.addr.drop (0 + bs.length) = 0 :: List.replicate (254 - bs.length) 0 := by
          simp only [P2.init, List.drop_replicate]
          rw [show 255 - (0 + bs.length) = (254 - bs.length) + 1 by omega, List.replicate_succ]
        rw [this]; simpa using cstr_append_zero bs _ hb3
      rw [hc]

/-- Case: a request for `a.b`, port 80, in three segments. -/
example : ∃ r, p2Req [.data 5 [1, 0], .again, .data 3 [3, 97], .data 46 [98, 0, 80]] = .stopped (.accept r) ∧ cupAddr r = wanted (.name [97, 46, 98]) 80 :=
  c01_connect_decodes _ 0 (.name [97, 46, 98]) 80 [] ⟨by decide, by decide, by decide⟩ (by decide)

/-- C01. As long as only a strict prefix of the request has arrived the server waits: it neither connects nor closes. -/
theorem c01_not_before (l : List Rx) (rsv : UInt8) (h : Host) (port : Nat) (w : List UInt8)
    (hh : HostOk h) (hs : streamOf l = w) (hw : w <+: encodeReq 5 1 rsv h port)
    (hlt : w.length < (encodeReq 5 1 rsv h port).length) (hnf : failsAtEnd l = false) :
    ∃ s free, p2Req l = .waiting s free [] := by
  rw [p2Req_eq, hs]
  obtain ⟨u, hu⟩ := hw
  have key : ∃ s, feed p2Byte P2.init w = .cont s := by
    by_cases hw4 : w.length < 4
    · exact feed_short w hw4
    match w, hw4 with
    | [], h => simp at h
    | [_], h => simp at h
    | [_, _], h => simp at h
    | [_, _, _], h => simp at h
    | v :: c :: r :: t :: rest, _ =>
      cases h with
      | v4 a b c' d =>
        simp [encodeReq, encodeHost, encodePort] at hu hlt
        obtain ⟨-, -, -, ht, -⟩ := hu
        subst ht
        rw [feed_hdr, if_pos rfl]
        exact feed_incomplete (n := 4) (.inl ⟨rfl, rfl⟩) rfl (by decide) rest (by simp; omega)
      | name bs =>
        obtain ⟨hb1, hb2, hb3⟩ := hh
        simp [encodeReq, encodeHost, encodePort] at hu hlt
        obtain ⟨-, -, -, ht, hu⟩ := hu
        subst ht
        rw [feed_hdr, if_neg (by decide), if_neg (by decide), if_pos rfl]
        match rest with
        | [] => exact ⟨_, rfl⟩
        | n :: rest =>
          simp at hu hlt
          obtain ⟨hn, hu⟩ := hu
          subst hn
          have hn : (UInt8.ofNat bs.length).toNat = bs.length := by simp; omega
          have hn0 : UInt8.ofNat bs.length ≠ 0 := by
            intro h; rw [h] at hn; simp at hn; omega
          rw [feed_domainn]
          exact feed_incomplete (n := UInt8.ofNat bs.length) (.inr (.inr ⟨rfl, rfl⟩)) rfl hn0 rest (by rw [hn]; omega)
  obtain ⟨s, hk⟩ := key
  rw [hk]; simp [hnf]

/-- Case: the first four bytes of that request. -/
example : ∃ s free, p2Req [.data 5 [1, 0], .again, .data 3 []] = .waiting s free [] :=
  c01_not_before _ 0 (.name [97, 46, 98]) 80 _ ⟨by decide, by decide, by decide⟩ rfl (by decide) (by decide) (by decide)

/-- Ports survive the encoding: the two bytes put into `sin_port` are the port in network order. -/
theorem c01_port_bytes (port : Nat) (hp : port < 65536) :
    (UInt8.ofNat (port / 256)).toNat * 256 + (UInt8.ofNat (port % 256)).toNat = port := by
  simp; omega

/-- C01 is not vacuous: a request for `a.b` port 80, cut into three receives with a would-block in between. -/
example : p2Req [.data 5 [1, 0], .again, .data 3 [3, 97], .data 46 [98, 0, 80]] =
    .stopped (.accept { P2.init with
      ver := 5, cmd := 1, atyp := 3, addrN := 3, addrCnt := 3,
      addr := [97, 46, 98] ++ List.replicate 252 0, port0 := 0, port1 := 80 }) := by
  rw [p2Req_eq]; rfl
example : HostOk (.name [97, 46, 98]) ∧
    streamOf [.data 5 [1, 0], .again, .data 3 [3, 97], .data 46 [98, 0, 80]] = encodeReq 5 1 0 (.name [97, 46, 98]) 80 ++ [] := by
  refine ⟨⟨by decide, by decide, by decide⟩, by decide⟩
example : HostOk (.name [97, 46, 98]) ∧ streamOf [.data 5 [1, 0], .again, .data 3 [3]] <+: encodeReq 5 1 0 (.name [97, 46, 98]) 80 ∧
    failsAtEnd [.data 5 [1, 0], .again, .data 3 [3]] = false := by
  refine ⟨⟨by decide, by decide, by decide⟩, by decide, by decide⟩

/-- The destination that is used for an accepted name field: the bytes before the first NUL. -/
def nameUsed (bs : List UInt8) : List UInt8 := bs.takeWhile (· ≠ 0)

theorem cstr_pad (bs : List UInt8) (k : Nat) (h : 0 < k) :
    cstr (bs ++ List.replicate k 0) = some (nameUsed bs) := by
  induction bs with
  | nil => obtain ⟨k, rfl⟩ : ∃ j, k = j + 1 := ⟨k - 1, by omega⟩
           simp [nameUsed, List.replicate_succ, cstr]
  | cons b bs ih =>
    by_cases hb : b = 0
    · simp [cstr, nameUsed, hb]
    · simp only [nameUsed] at ih ⊢
      simp [cstr, hb, ih]

/-- C02. Only a CONNECT request makes the server act: if it accepts, the stream starts with the encoding of a CONNECT
request for an IPv4 address or a name of 1..255 bytes, and the action taken is the one encoded (a name is used up to its
first NUL byte; only a 255-byte name without NUL is outside this, see C04). -/
theorem c02_accept_sound (l : List Rx) (r : P2) (h : p2Req l = .stopped (.accept r)) :
    ∃ rsv host p0 p1 tail, streamOf l = [5, 1, rsv] ++ encodeHost host ++ [p0, p1] ++ tail ∧
      match host with
      | .v4 a b c d => cupAddr r = .connect4 [a, b, c, d] p0 p1
      | .name bs => 1 ≤ bs.length ∧ bs.length ≤ 255 ∧
          (bs.length ≤ 254 → cupAddr r = .resolve (nameUsed bs) p0 p1) := by
  rw [p2Req_eq] at h
  have hsh := feed_shape (streamOf l)
  generalize streamOf l = w at *
  generalize hx : feed p2Byte P2.init w = x at *
  have hxr : x = .stop (.accept r) := by
    cases x with
    | cont s => dsimp only at h; split at h <;> cases h
    | stop r' => dsimp only at h; cases h; rfl
  clear h
  cases hsh with
  | @v4 v c rr a b c' d p0 p1 rest =>
    rw [p2End] at hxr
    split at hxr
    next hc =>
      obtain ⟨hv, hcm, -⟩ := hc
      have hv : v = 5 := hv
      have hcm : c = 1 := hcm
      subst hv; subst hcm
      cases hxr
      exact ⟨rr, .v4 a b c' d, p0, p1, rest, by simp [encodeHost], rfl⟩
    next => cases hxr
  | @name v c rr n bs p0 p1 rest hn hbs =>
    have hn255 := n.toNat_lt
    have hnpos : 0 < n.toNat := by
      rcases Nat.eq_zero_or_pos n.toNat with h0 | h0
      · exact absurd (UInt8.toNat_inj.mp (by simpa using h0)) hn
      · exact h0
    rw [p2End] at hxr
    split at hxr
    next hc =>
      obtain ⟨hv, hcm, -⟩ := hc
      have hv : v = 5 := hv
      have hcm : c = 1 := hcm
      subst hv; subst hcm
      cases hxr
      refine ⟨rr, .name bs, p0, p1, rest, by simp [encodeHost, hbs], by omega, by omega, ?_⟩
      intro hle
      have ha : ((3 : UInt8) = IPV4) = False := by simp [IPV4]
      simp only [cupAddr, hdr, ha, if_false, DOMAIN, if_true]
      rw [writeAt_eq _ _ _ (by simp [-List.reduceReplicate]; omega)]
      simp only [List.drop_replicate, List.take_zero, List.nil_append, Nat.zero_add]
      rw [cstr_pad _ _ (by omega)]
    next => cases hxr
  | _ => cases hxr

/-- C02. Complete requests with another version or command close the client connection. -/
theorem c02_reject_version_command (l : List Rx) (ver cmd rsv : UInt8) (host : Host) (port : Nat) (tail : List UInt8)
    (hh : match host with | .v4 .. => True | .name bs => 1 ≤ bs.length ∧ bs.length ≤ 255)
    (hs : streamOf l = encodeReq ver cmd rsv host port ++ tail) (hbad : ver ≠ 5 ∨ cmd ≠ 1) :
    p2Req l = .stopped .close := by
  rw [p2Req_eq, hs]
  have hno : ∀ s : P2, s.ver = ver → s.cmd = cmd → p2End s = .stop .close := by
    intro s h1 h2; rw [p2End, if_neg]; rw [h1, h2]; rintro ⟨ha, hb, -⟩
    rcases hbad with h | h <;> contradiction
  cases host with
  | v4 a b c d =>
    simp only [encodeReq, encodeHost, encodePort, List.cons_append, List.nil_append]
    rw [feed_hdr, if_pos rfl]
    have hf : Filling (hdr ver cmd rsv 1 TYP_V4 4) 4 := .inl ⟨rfl, rfl⟩
    rw [show a :: b :: c :: d :: UInt8.ofNat (port / 256) :: UInt8.ofNat (port % 256) :: tail =
      [a, b, c, d] ++ UInt8.ofNat (port / 256) :: UInt8.ofNat (port % 256) :: tail from rfl]
    rw [feed_complete hf rfl (by decide) [a, b, c, d] rfl, hno _ rfl rfl]
  | name bs =>
    have hn : (UInt8.ofNat bs.length).toNat = bs.length := by simp at hh ⊢; omega
    have hn0 : UInt8.ofNat bs.length ≠ 0 := by
      intro h; rw [h] at hn; simp at hn hh; omega
    simp only [encodeReq, encodeHost, encodePort, List.cons_append, List.nil_append, List.append_assoc]
    rw [feed_hdr, if_neg (by decide), if_neg (by decide), if_pos rfl, feed_domainn]
    have hf : Filling (hdr ver cmd rsv 3 TYP_DOMAIN (UInt8.ofNat bs.length)) (UInt8.ofNat bs.length) :=
      .inr (.inr ⟨rfl, rfl⟩)
    rw [feed_complete hf rfl hn0 bs hn.symm, hno _ rfl rfl]

/-- Case: BIND (2). -/
example : p2Req [.data 5 [2, 0, 1, 10, 0], .data 0 [1, 1, 187]] = .stopped .close :=
  c02_reject_version_command _ 5 2 0 (.v4 10 0 0 1) 443 [] trivial (by decide) (.inr (by decide))

/-- C02. IPv6 requests close the client connection when complete; unknown address types close it at once. -/
theorem c02_reject_address_type (l : List Rx) (ver cmd rsv t : UInt8) (rest : List UInt8)
    (hs : streamOf l = ver :: cmd :: rsv :: t :: rest) (ht : t ≠ 1 ∧ t ≠ 3) (hlen : t = 4 → 18 ≤ rest.length) :
    p2Req l = .stopped .close := by
  rw [p2Req_eq, hs]
  by_cases h4 : t = 4
  · subst h4
    rw [feed_hdr, if_neg (by decide), if_pos rfl]
    obtain ⟨a, p0, p1, u, rfl, ha⟩ := split_at rest 16 (by have := hlen rfl; omega)
    rw [feed_complete (n := 16) (.inr (.inl ⟨rfl, rfl⟩)) rfl (by decide) a (by simpa using ha)]
    simp [p2End, hdr, IPV6]
  · rw [feed_hdr, if_neg ht.1, if_neg h4, if_neg ht.2]

/-- Case: address type 2. -/
example : p2Req [.data 5 [1, 0, 2, 9]] = .stopped .close := c02_reject_address_type _ 5 1 0 2 [9] (by decide) (by decide) (by decide)

/-- C02. No stream makes the parser run out of buffer (`recvs` would abort the worker). -/
theorem c02_never_aborts (l : List Rx) : p2Req l ≠ .aborted ∧ p1Req l ≠ .aborted := by
  rw [p2Req_eq, p1Req_eq]
  constructor
  · cases feed p2Byte P2.init (streamOf l) with
    | cont s => dsimp only; split <;> simp
    | stop r => simp
  · cases feed p1Byte P1.init (streamOf l) with
    | cont s => dsimp only; split <;> simp
    | stop r => simp

/-- Case for `c02_accept_sound`: a request that is accepted. -/
example : p2Req [.data 5 [1, 0, 1, 10, 0], .data 0 [1, 1, 187]] = .stopped (.accept { P2.init with
    ver := 5, cmd := 1, atyp := 1,
    addrN := 4, addrCnt := 4, addr := [10, 0, 0, 1] ++ List.replicate 251 0, port0 := 1, port1 := 187 }) := by
  rw [p2Req_eq]; rfl
example : streamOf [.data 5 [2, 0, 1, 10, 0], .data 0 [1, 1, 187]] = encodeReq 5 2 0 (.v4 10 0 0 1) 443 ++ [] := by decide

/-- C03. The greeting is complete exactly when the announced number of methods has arrived; the recorded methods are the ones
sent. -/
theorem c03_greeting (l : List Rx) (ver : UInt8) (methods tail : List UInt8)
    (hm : 1 ≤ methods.length ∧ methods.length ≤ 255) (hs : streamOf l = encodeGreeting ver methods ++ tail) :
    ∃ r, p1Req l = .stopped (.done r) ∧ r.ver = ver ∧ r.methods.take r.methodsN.toNat = methods := by
  rw [p1Req_eq, hs]
  have hn : (UInt8.ofNat methods.length).toNat = methods.length := by simp; omega
  simp only [encodeGreeting, List.cons_append]
  rw [p1_hdr, p1_fill_full rfl methods tail (by intro h; subst h; simp at hm) (by simp [hdr1, P1.init, -List.reduceReplicate]; omega)]
  refine ⟨_, rfl, rfl, ?_⟩
  show List.take (UInt8.ofNat methods.length).toNat (writeAt (List.replicate 255 0) 0 methods) = methods
  rw [writeAt_eq _ _ _ (by simp [-List.reduceReplicate]; omega), hn]
  simp [-List.reduceReplicate]

/-- Case: two methods in two segments, one byte more. -/
example : ∃ r, p1Req [.data 5 [2], .again, .data 0 [2, 9]] = .stopped (.done r) ∧ r.ver = 5 ∧ r.methods.take r.methodsN.toNat = [0, 2] :=
  c03_greeting _ 5 [0, 2] [9] (by decide) (by decide)

/-- C03. While the greeting is incomplete the server keeps waiting and sends nothing. -/
theorem c03_not_before (l : List Rx) (ver : UInt8) (methods w : List UInt8)
    (hm : 1 ≤ methods.length ∧ methods.length ≤ 255) (hs : streamOf l = w)
    (hw : w <+: encodeGreeting ver methods) (hlt : w.length < (encodeGreeting ver methods).length)
    (hnf : failsAtEnd l = false) : ∃ s free, p1Req l = .waiting s free [] := by
  rw [p1Req_eq, hs]
  obtain ⟨u, hu⟩ := hw
  have hn : (UInt8.ofNat methods.length).toNat = methods.length := by simp; omega
  have key : ∃ s, feed p1Byte P1.init w = .cont s := by
    match w with
    | [] => exact ⟨_, rfl⟩
    | [_] => exact ⟨_, rfl⟩
    | v :: n :: rest =>
      simp [encodeGreeting] at hu hlt
      obtain ⟨-, rfl, -⟩ := hu
      rw [p1_hdr]
      exact ⟨_, p1_fill_part rfl rest (by simp [hdr1, P1.init, -List.reduceReplicate]; omega)
        (by intro _; simp [hdr1, P1.init, -List.reduceReplicate]; omega)⟩
  obtain ⟨s, hk⟩ := key
  rw [hk]; simp [hnf]

/-- Case: one of two methods. -/
example : ∃ s free, p1Req [.data 5 [2], .again, .data 0 []] = .waiting s free [] :=
  c03_not_before _ 5 [0, 2] _ (by decide) rfl (by decide) (by decide) (by decide)

/-- C03. The reply is the two bytes `05 00`; whatever the socket does, what was sent is a prefix of it, and the handshake
continues only when all of it was sent. -/
theorem c03_reply (l : List Tx) :
    match rspAll [] p1Reply l with
    | .done w _ => w = [5, 0]
    | .again w u _ => w ++ u = [5, 0] ∧ u ≠ []
    | .closed w => w <+: [5, 0] := by
  have h := rspAll_spec [] p1Reply l
  revert h
  generalize rspAll [] p1Reply l = o
  cases o with
  | done w r => intro h; exact h
  | again w u r => rintro ⟨h1, h2, -⟩; exact ⟨h1, h2⟩
  | closed w => intro h; exact h

example : rspAll [] p1Reply [.again, .sent 1, .again, .sent 1] = .done [5, 0] [] := by
  simp [p1Reply, rspAll, rsp]
example : streamOf [.data 5 [2], .again, .data 0 [2, 9]] = encodeGreeting 5 [0, 2] ++ [9] := by decide

/-- C04 (part). The request parser stores outside `dst_addr` exactly for a domain request with length byte zero followed by at
least 256 bytes; on every other stream all stores are inside. What is missing for the full property: this input, see
`c04_counterexample`. -/
theorem c04_request_store_partial (l : List Rx) : p2Req l = .stopped .oob ↔
    ∃ v c r rest, streamOf l = v :: c :: r :: 3 :: 0 :: rest ∧ 256 ≤ rest.length := by
  rw [p2Req_eq]
  constructor
  · intro h
    have hsh := feed_shape (streamOf l)
    generalize streamOf l = w at *
    generalize hx : feed p2Byte P2.init w = x at *
    have hxr : x = .stop .oob := by
      cases x with
      | cont s => dsimp only at h; split at h <;> cases h
      | stop r' => dsimp only at h; cases h; rfl
    clear h
    cases hsh with
    | v4 => unfold p2End at hxr; split at hxr <;> cases hxr
    | name => unfold p2End at hxr; split at hxr <;> cases hxr
    | @zero v c r rest hl => exact ⟨v, c, r, rest, rfl, hl⟩
    | _ => cases hxr
  · rintro ⟨v, c, r, rest, hs, hl⟩
    rw [hs, feed_hdr, if_neg (by decide), if_neg (by decide), if_pos rfl, feed_domainn,
      feed_fill_oob (.inr (.inr ⟨rfl, rfl⟩)) rest rfl hl]

/-- Case: 256 bytes behind a length of zero. -/
example : p2Req [.data 5 ([1, 0, 3, 0] ++ List.replicate 256 97)] = .stopped .oob :=
  (c04_request_store_partial _).mpr ⟨5, 1, 0, List.replicate 256 97, by simp [streamOf, -List.reduceReplicate], by rw [List.length_replicate]; decide⟩

/-- C04 (part). The greeting parser stores outside `methods` exactly for a method count of zero followed by at least 256
bytes. -/
theorem c04_greeting_store_partial (l : List Rx) : p1Req l = .stopped .oob ↔
    ∃ v rest, streamOf l = v :: 0 :: rest ∧ 256 ≤ rest.length := by
  rw [p1Req_eq]
  have hsh := p1_shape (streamOf l)
  generalize streamOf l = w at *
  generalize hx : feed p1Byte P1.init w = x at *
  constructor
  · intro h
    have hxr : x = .stop .oob := by
      cases x with
      | cont s => dsimp only at h; split at h <;> cases h
      | stop r' => dsimp only at h; cases h; rfl
    clear h
    cases hsh with
    | @zero v rest hl => exact ⟨v, rest, rfl, hl⟩
    | _ => cases hxr
  · rintro ⟨v, rest, rfl, hl⟩
    generalize hw : v :: 0 :: rest = w at *
    cases hsh with
    | more h => subst hw; simp at h; omega
    | full hn _ => cases hw; exact absurd rfl hn
    | zero _ => rfl

/-- Case: 256 bytes behind a number of methods of zero. -/
example : p1Req [.data 5 (0 :: List.replicate 256 97)] = .stopped .oob :=
  (c04_greeting_store_partial _).mpr ⟨5, List.replicate 256 97, by simp [streamOf, -List.reduceReplicate], by rw [List.length_replicate]; decide⟩

/-- C04 (part). The name of an accepted request is read outside `dst_addr` exactly when the 255 bytes contain no NUL. -/
theorem c04_name_read_partial (r : P2) : cupAddr r = .oob ↔ r.atyp = 3 ∧ (0 : UInt8) ∉ r.addr := by
  have hns : ∀ l : List UInt8, cstr l = none ↔ (0 : UInt8) ∉ l := by
    intro l
    constructor
    · intro h hm
      induction l with
      | nil => simp at hm
      | cons b bs ih =>
        by_cases hb : b = 0
        · simp [cstr, hb] at h
        · simp [cstr, hb] at h
          simp only [List.mem_cons] at hm
          rcases hm with hm | hm
          · exact hb hm.symm
          · exact ih h hm
    · exact cstr_none l
  unfold cupAddr
  by_cases h1 : r.atyp = IPV4
  · simp [h1, IPV4]
  by_cases h3 : r.atyp = DOMAIN
  · rw [if_neg h1, if_pos h3]
    cases hc : cstr r.addr with
    | none => simp [h3, DOMAIN, (hns _).mp hc]
    | some n =>
      simp only [reduceCtorEq, false_iff, not_and]
      intro _ hm; rw [(hns _).mpr hm] at hc; cases hc
  · rw [if_neg h1, if_neg h3]
    have : r.atyp ≠ 3 := h3
    simp [this]

/-- Case: the name `a.b` is read, one that fills the array is not. -/
example : cupAddr { P2.init with atyp := 3, addr := [97, 46, 98] ++ List.replicate 252 0 } ≠ .oob ∧
    cupAddr { P2.init with atyp := 3, addr := List.replicate 255 97 } = .oob := by
  constructor
  · intro h
    exact ((c04_name_read_partial _).mp h).2 (List.mem_append_right _ (List.mem_replicate.mpr ⟨by decide, rfl⟩))
  · exact (c04_name_read_partial _).mpr ⟨rfl, fun h => absurd (List.eq_of_mem_replicate h) (by decide)⟩

/-- C04, counterexample: 261 request bytes (258 greeting bytes) make the parser store outside its arrays. -/
theorem c04_counterexample :
    (∃ l, p2Req l = .stopped .oob) ∧ (∃ l, p1Req l = .stopped .oob) :=
  ⟨⟨[.data 5 ([1, 0, 3, 0] ++ List.replicate 256 65)], (c04_request_store_partial _).mpr
      ⟨5, 1, 0, List.replicate 256 65, by simp [streamOf, -List.reduceReplicate], by simp [-List.reduceReplicate]⟩⟩,
    ⟨[.data 5 (0 :: List.replicate 256 0)], (c04_greeting_store_partial _).mpr
      ⟨5, List.replicate 256 0, by simp [streamOf, -List.reduceReplicate], by simp [-List.reduceReplicate]⟩⟩⟩

/-- C04: a 255-byte name without NUL is read past the end of `dst_addr`. -/
theorem c04_name_255 (bs : List UInt8) (hl : bs.length = 255) (h0 : (0 : UInt8) ∉ bs) (l : List Rx)
    (hs : streamOf l = encodeReq 5 1 0 (.name bs) 80) :
    ∃ r, p2Req l = .stopped (.accept r) ∧ cupAddr r = .oob := by
  refine ⟨{ hdr 5 1 0 3 0 255 with addr := writeAt P2.init.addr 0 bs, addrCnt := 255, port0 := 0, port1 := 80 }, ?_, ?_⟩
  · rw [p2Req_eq, hs]
    simp only [encodeReq, encodeHost, encodePort, List.cons_append, List.nil_append, hl]
    rw [feed_hdr, if_neg (by decide), if_neg (by decide), if_pos rfl, feed_domainn,
      feed_complete (n := 255) (.inr (.inr ⟨rfl, rfl⟩)) rfl (by decide) bs (by simp [hl]),
      p2End, if_pos (by exact ⟨rfl, rfl, by show (3 : UInt8) ≠ 4; decide⟩)]
    rfl
  · rw [c04_name_read_partial]
    refine ⟨rfl, ?_⟩
    show (0 : UInt8) ∉ writeAt P2.init.addr 0 bs
    rw [writeAt_eq _ _ _ (by simp [P2.init, hl, -List.reduceReplicate])]
    simp [P2.init, hl, h0, -List.reduceReplicate]

/-- Case: the letter `a` 255 times. -/
example : ∃ r, p2Req [.data 5 ([1, 0, 3, 255] ++ List.replicate 255 97 ++ [0, 80])] = .stopped (.accept r) ∧ cupAddr r = .oob :=
  c04_name_255 (List.replicate 255 97) List.length_replicate (fun h => absurd (List.eq_of_mem_replicate h) (by decide)) _ (by decide +kernel)

/-- C04, counterexample: such a request exists. -/
theorem c04_name_counterexample : ∃ l r, p2Req l = .stopped (.accept r) ∧ cupAddr r = .oob :=
  ⟨[.data 5 ([1, 0, 3, 255] ++ List.replicate 255 65 ++ [0, 80])],
    c04_name_255 (List.replicate 255 65) (by simp [-List.reduceReplicate])
      (by simp [List.mem_replicate, -List.reduceReplicate]) _
      (by simp [streamOf, encodeReq, encodeHost, encodePort, -List.reduceReplicate])⟩

end Verif.S5
