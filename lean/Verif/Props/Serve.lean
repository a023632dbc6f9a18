import Verif.Model.Serve
import Verif.Props.Socks5
/-
Properties C81, C82, C83, C86: whole sessions of the tunnel server.
-/
namespace Verif.Serve
open Verif Verif.S5 Verif.S5Spec

variable {admit : List UInt8 → Bool}

/-! ### A client that waits for the answers -/

/-- What a client sends, and how many bytes it must have got before it sends each record: the header and the greeting at once, the request after
the answer to the greeting (two bytes), the data after the answer to the request (ten bytes more). -/
def script (H G R D : List (List UInt8)) : List (List UInt8 × Nat) :=
  (H ++ G).map (·, 0) ++ R.map (·, 2) ++ D.map (·, 12)

/-- A history in which the client keeps to the script `c`, no call fails and the upstream can be reached; `none` for other histories. The result is the
rest of the script and the session. -/
def play (admit : List UInt8 → Bool) : List (List UInt8 × Nat) → St → List Ev → Option (List (List UInt8 × Nat) × St)
  | c, s, [] => some (c, s)
  | c, s, .arrive r :: es =>
    match c with
    | [] => none
    | (r', k) :: c' => if r = r' ∧ k ≤ s.wire.length then play admit c' (step admit s (.arrive r)) es else none
  | _, _, .refused :: _ => none
  | _, _, .fail :: _ => none
  | c, s, e :: es => play admit c (step admit s e) es

theorem used_cont {σ ρ : Type} {f : σ → UInt8 → Step σ ρ} {s s' : σ} {a : List UInt8} (h : feed f s a = .cont s') (b : List UInt8) :
    used f s (a ++ b) = a.length + used f s' b := by
  induction a generalizing s with
  | nil => simp only [feed] at h; cases h; simp
  | cons x a ih =>
    simp only [feed] at h
    cases hx : f s x with
    | cont s1 =>
      rw [hx] at h
      have := ih h
      simp only [List.cons_append, used, hx, this, List.length_cons]
      omega
    | stop r => rw [hx] at h; cases h

theorem used_exact {σ ρ : Type} {f : σ → UInt8 → Step σ ρ} {s : σ} {w : List UInt8} {r : ρ} (hw : w ≠ []) (hs : feed f s w = .stop r)
    (hp : ∀ a u, w = a ++ u → u ≠ [] → ∃ s', feed f s a = .cont s') (tail : List UInt8) : used f s (w ++ tail) = w.length := by
  obtain ⟨a, x, rfl⟩ : ∃ a x, w = a ++ [x] := ⟨w.dropLast, w.getLast hw, (List.dropLast_concat_getLast hw).symm⟩
  obtain ⟨s', h'⟩ := hp a [x] rfl (by simp)
  rw [feed_append, h'] at hs
  rw [List.append_assoc, used_cont h']
  simp only [feed, List.singleton_append, used] at hs ⊢
  cases hx : f s' x with
  | cont s1 => rw [hx] at hs; cases hs
  | stop r => simp

theorem feed_greet_part {v : UInt8} {ms w u : List UInt8} (hm : 1 ≤ ms.length ∧ ms.length ≤ 255) (hw : w ++ u = encodeGreeting v ms) (hu : u ≠ []) :
    ∃ p, feed p1Byte P1.init w = .cont p := by
  have hlt : w.length < (encodeGreeting v ms).length := by
    rw [← hw, List.length_append]; have := List.length_pos_iff.mpr hu; omega
  cases w with
  | nil => exact ⟨_, rfl⟩
  | cons b bs =>
    obtain ⟨p, free, h⟩ := c03_not_before [.data b bs] v ms (b :: bs) hm (by simp [streamOf]) ⟨u, hw⟩ hlt (by simp [failsAtEnd])
    rw [p1Req_eq] at h
    simp only [streamOf, List.append_nil] at h
    cases hf : feed p1Byte P1.init (b :: bs) with
    | cont p => exact ⟨p, rfl⟩
    | stop r => rw [hf] at h; cases h

theorem feed_greet_full (v : UInt8) (ms : List UInt8) (hm : 1 ≤ ms.length ∧ ms.length ≤ 255) :
    ∃ r, feed p1Byte P1.init (encodeGreeting v ms) = .stop (.done r) := by
  obtain ⟨r, h, -, -⟩ := c03_greeting [.data v (UInt8.ofNat ms.length :: ms)] v ms [] hm (by simp [streamOf, encodeGreeting])
  rw [p1Req_eq] at h
  simp only [streamOf, List.append_nil] at h
  refine ⟨r, ?_⟩
  show feed p1Byte P1.init (v :: UInt8.ofNat ms.length :: ms) = _
  cases hf : feed p1Byte P1.init (v :: UInt8.ofNat ms.length :: ms) with
  | cont p => rw [hf] at h; simp [failsAtEnd] at h
  | stop r' => rw [hf] at h; simpa using h

theorem encodeReq_ne (ver cmd rsv : UInt8) (h : Host) (port : Nat) : ∃ b bs, encodeReq ver cmd rsv h port = b :: bs := ⟨_, _, rfl⟩

theorem feed_req_part {rsv : UInt8} {h : Host} {port : Nat} {w u : List UInt8} (hh : HostOk h) (hw : w ++ u = encodeReq 5 1 rsv h port) (hu : u ≠ []) :
    ∃ p, feed p2Byte P2.init w = .cont p := by
  have hlt : w.length < (encodeReq 5 1 rsv h port).length := by
    rw [← hw, List.length_append]; have := List.length_pos_iff.mpr hu; omega
  cases w with
  | nil => exact ⟨_, rfl⟩
  | cons b bs =>
    obtain ⟨p, free, k⟩ := c01_not_before [.data b bs] rsv h port (b :: bs) hh (by simp [streamOf]) ⟨u, hw⟩ hlt (by simp [failsAtEnd])
    rw [p2Req_eq] at k
    simp only [streamOf, List.append_nil] at k
    cases hf : feed p2Byte P2.init (b :: bs) with
    | cont p => exact ⟨p, rfl⟩
    | stop r => rw [hf] at k; cases k

theorem feed_req_full (rsv : UInt8) (h : Host) (port : Nat) (hh : HostOk h) :
    ∃ r, feed p2Byte P2.init (encodeReq 5 1 rsv h port) = .stop (.accept r) ∧ cupAddr r = wanted h port := by
  obtain ⟨b, bs, e⟩ := encodeReq_ne 5 1 rsv h port
  obtain ⟨r, k, k2⟩ := c01_connect_decodes [.data b bs] rsv h port [] hh (by simp [streamOf, e])
  rw [p2Req_eq] at k
  simp only [streamOf, List.append_nil] at k
  refine ⟨r, ?_, k2⟩
  rw [e]
  cases hf : feed p2Byte P2.init (b :: bs) with
  | cont p => rw [hf] at k; simp [failsAtEnd] at k
  | stop r' => rw [hf] at k; simpa using k

theorem req_len {rsv : UInt8} {h : Host} {port : Nat} (hh : HostOk h) : (encodeReq 5 1 rsv h port).length ≤ 261 := by
  cases h with
  | v4 a b c d => simp [encodeReq, encodeHost, encodePort]
  | name bs => have := hh.2.1; simp [encodeReq, encodeHost, encodePort]; omega

theorem flatten_nil {X : List (List UInt8)} (h : X.flatten = []) (hn : [] ∉ X) : X = [] := by
  cases X with
  | nil => rfl
  | cons a t => simp at h hn; exact absurd h.1.symm (by simpa using hn.1)

theorem established_length (h : Host) (port : Nat) (ip : List UInt8) : (established (wanted h port) ip).length = 10 := by
  cases h <;> simp [established, wanted, p2Reply, leStore]

/-- What holds in every phase of a session with such a client; `c` is the rest of its script. -/
def Inv (hdr : List UInt8) (G R D : List (List UInt8)) (v : UInt8) (ms : List UInt8) (rsv : UInt8) (h : Host) (port : Nat)
    (c : List (List UInt8 × Nat)) (s : St) : Prop :=
  s.lost = [] ∧
  match s.phase with
  | .auth buf => s.wire = [] ∧ s.up = [] ∧ buf.length < 36 ∧ ∃ Hr X, buf ++ Hr.flatten = hdr ∧ [] ∉ Hr ∧ Hr ++ G = s.sock ++ X ∧
      c = X.map (·, 0) ++ R.map (·, 2) ++ D.map (·, 12)
  | .greet p free => s.wire = [] ∧ s.up = [] ∧ ∃ w Gr X, feed p1Byte P1.init w = .cont p ∧ free = 12288 - w.length ∧
      w ++ Gr.flatten = encodeGreeting v ms ∧ [] ∉ Gr ∧ Gr = s.sock ++ X ∧ c = X.map (·, 0) ++ R.map (·, 2) ++ D.map (·, 12)
  | .greetRsp u => s.up = [] ∧ u ≠ [] ∧ s.wire ++ u = [5, 0] ∧ s.sock = [] ∧ c = R.map (·, 2) ++ D.map (·, 12)
  | .request p free => s.wire = [5, 0] ∧ s.up = [] ∧ ∃ w Rr X, feed p2Byte P2.init w = .cont p ∧ free = 12288 - w.length ∧
      w ++ Rr.flatten = encodeReq 5 1 rsv h port ∧ [] ∉ Rr ∧ Rr = s.sock ++ X ∧ c = X.map (·, 2) ++ D.map (·, 12)
  | .connect a => a = wanted h port ∧ s.wire = [5, 0] ∧ s.up = [] ∧ s.sock = [] ∧ c = D.map (·, 12)
  | .reply u => u ≠ [] ∧ (∃ ip, s.wire ++ u = [5, 0] ++ established (wanted h port) ip) ∧ s.up = [] ∧ s.sock = [] ∧ c = D.map (·, 12)
  | .relay => (∃ ip, s.wire = [5, 0] ++ established (wanted h port) ip) ∧ s.up ++ s.sock.flatten ++ (c.map (·.1)).flatten = D.flatten
  | .closed => False
  | .crash => False

theorem head12 {r : List UInt8} {k : Nat} {c : List (List UInt8 × Nat)} {D : List (List UInt8)} (e : (r, k) :: c = D.map (·, 12)) : 12 ≤ k := by
  cases D with
  | nil => simp at e
  | cons d D => simp at e; omega

theorem head2 {r : List UInt8} {k : Nat} {c : List (List UInt8 × Nat)} {R D : List (List UInt8)} (e : (r, k) :: c = R.map (·, 2) ++ D.map (·, 12)) :
    2 ≤ k := by
  cases R with
  | nil => have := head12 e; omega
  | cons d D => simp at e; omega

section
variable {hdr : List UInt8} {G R D : List (List UInt8)} {v : UInt8} {ms : List UInt8} {rsv : UInt8} {h : Host} {port : Nat}
  {c : List (List UInt8 × Nat)} {s : St}

theorem inv_arrive {r : List UInt8} {k : Nat} (hi : Inv hdr G R D v ms rsv h port ((r, k) :: c) s) (hk : k ≤ s.wire.length) :
    Inv hdr G R D v ms rsv h port c (step admit s (.arrive r)) := by
  obtain ⟨ph, sk, wi, u, lo⟩ := s
  cases ph with
  | auth buf =>
    obtain ⟨hl, h1, h2, h3, Hr, X, h4, h5, h6, h7⟩ := hi
    simp only at hl h1 h2 h6 hk
    subst h1
    cases X with
    | nil => have := head2 (by simpa using h7); simp at hk; omega
    | cons x X =>
      simp at h7
      refine ⟨hl, rfl, h2, h3, Hr, X, h4, h5, ?_, ?_⟩
      · simp [step, h6, h7.1.1]
      · simp [h7.2]
  | greet p free =>
    obtain ⟨hl, h1, h2, w, Gr, X, h3, h4, h5, h8, h6, h7⟩ := hi
    simp only at hl h1 h2 h6 hk
    subst h1
    cases X with
    | nil => have := head2 (by simpa using h7); simp at hk; omega
    | cons x X =>
      simp at h7
      refine ⟨hl, rfl, h2, w, Gr, X, h3, h4, h5, h8, ?_, ?_⟩
      · simp [step, h6, h7.1.1]
      · simp [h7.2]
  | greetRsp u =>
    obtain ⟨hl, h1, h2, h3, h4, h5⟩ := hi
    exfalso
    have e := congrArg List.length h3
    have := List.length_pos_iff.mpr h2
    have := head2 h5
    simp at e hk; omega
  | request p free =>
    obtain ⟨hl, h1, h2, w, Rr, X, h3, h4, h5, h8, h6, h7⟩ := hi
    simp only at hl h1 h2 h6 hk
    subst h1
    cases X with
    | nil => have := head12 (by simpa using h7); simp at hk; omega
    | cons x X =>
      simp at h7
      exact ⟨hl, rfl, h2, w, Rr, X, h3, h4, h5, h8, by simp [step, h6, h7.1.1], by simp [h7.2]⟩
  | connect a =>
    obtain ⟨hl, -, h1, -, -, h2⟩ := hi
    exfalso
    simp only at h1 hk
    subst h1
    have := head12 h2
    simp at hk; omega
  | reply u =>
    obtain ⟨hl, h1, ⟨ip, h2⟩, h3, h4, h5⟩ := hi
    exfalso
    have e := congrArg List.length h2
    have := List.length_pos_iff.mpr h1
    have := head12 h5
    simp only [List.length_append, established_length] at e
    simp at e hk; omega
  | relay =>
    obtain ⟨hl, h1, h2⟩ := hi
    refine ⟨hl, h1, ?_⟩
    simp only [List.map_cons, List.flatten_cons] at h2
    simp [step, ← h2]
  | closed => exact absurd hi.2 id
  | crash => exact absurd hi.2 id

theorem inv_read (hl36 : hdr.length = 36) (ha : admit hdr = true) (hm : 1 ≤ ms.length ∧ ms.length ≤ 255) (hG : G.flatten = encodeGreeting v ms)
    (hG0 : [] ∉ G) (hh : HostOk h)
    (hi : Inv hdr G R D v ms rsv h port c s) : Inv hdr G R D v ms rsv h port c (step admit s .read) := by
  obtain ⟨ph, sk, wi, up, lo⟩ := s
  cases sk with
  | nil => exact hi
  | cons r t =>
  cases ph with
  | auth buf =>
    obtain ⟨hl, h1, h2, h3, Hr, X, h4, h5, h6, h7⟩ := hi
    simp only at hl h1 h2 h6
    subst h1 h2 hl
    have hlen := congrArg List.length h4
    simp only [List.length_append, hl36] at hlen
    cases Hr with
    | nil => simp at hlen; omega
    | cons r' Hr =>
      simp only [List.cons_append, List.cons.injEq] at h6
      obtain ⟨rfl, h6⟩ := h6
      simp only [List.flatten_cons, List.length_append] at hlen
      have e1 : r'.length ≤ metaN - buf.length := by simp [metaN]; omega
      have e2 : leave (metaN - buf.length) r' t = t := by simp [leave, e1]
      have e3 : r'.take (metaN - buf.length) = r' := List.take_of_length_le e1
      simp only [step, readAuth, e2, e3]
      split
      · next hlt =>
        simp only [hdrLen] at hlt
        exact ⟨rfl, rfl, rfl, hlt, Hr, X, by simpa using h4, by simp at h5; simpa using h5.2, h6, h7⟩
      · next hge =>
        simp only [hdrLen, List.length_append] at hge
        have h0 : Hr.flatten = [] := List.eq_nil_of_length_eq_zero (by omega)
        have h0' := flatten_nil h0 (fun hx => h5 (by simp [hx]))
        subst h0'
        have hb : buf ++ r' = hdr := by simpa using h4
        rw [hb, if_pos ha]
        refine ⟨by simp [hdrLen, hl36], rfl, rfl, [], G, X, rfl, by simp [metaN], by simpa using hG, hG0, by simpa using h6, h7⟩
  | greet p free =>
    obtain ⟨hl, h1, h2, w, Gr, X, h3, h4, h5, h8, h6, h7⟩ := hi
    simp only at hl h1 h2 h6
    subst h1 h2 hl h6
    have hlen := congrArg List.length h5
    simp only [List.length_append, encodeGreeting, List.length_cons, List.cons_append, List.flatten_cons] at hlen
    have e1 : r.length ≤ free := by omega
    have e0 : free ≠ 0 := by omega
    have e2 : leave free r t = t := by simp [leave, e1]
    have e3 : r.take free = r := List.take_of_length_le e1
    have hne : r ≠ [] := fun hx => h8 (by simp [hx])
    have h5' : w ++ r ++ (t ++ X).flatten = encodeGreeting v ms := by simpa using h5
    have hf : feed p1Byte P1.init (w ++ r) = feed p1Byte p r := by rw [feed_append, h3]
    have h8' : [] ∉ t ++ X := fun hx => h8 (by simp at hx; simp [hx])
    simp only [step, readGreet, e2, e3, if_neg e0]
    by_cases hrest : (t ++ X).flatten = []
    · have hnil := flatten_nil hrest h8'
      rw [List.append_eq_nil_iff] at hnil
      obtain ⟨rfl, rfl⟩ := hnil
      obtain ⟨q, hq⟩ := feed_greet_full v ms hm
      have hwr : w ++ r = encodeGreeting v ms := by simpa using h5'
      rw [← hwr, hf] at hq
      have hu := used_exact hne hq (fun a u hau hu => by
        obtain ⟨p', hp'⟩ := feed_greet_part (w := w ++ a) (u := u) hm (by rw [List.append_assoc, ← hau, hwr]) hu
        rw [feed_append, h3] at hp'
        exact ⟨p', hp'⟩) []
      rw [List.append_nil] at hu
      rw [hq]
      simp only [hu]
      exact ⟨by simp, rfl, by simp [p1Reply], by simp [p1Reply], rfl, by simpa using h7⟩
    · obtain ⟨p', hp'⟩ := feed_greet_part (w := w ++ r) (u := (t ++ X).flatten) hm h5' hrest
      rw [← hf, hp']
      exact ⟨rfl, rfl, rfl, w ++ r, t ++ X, X, hp', by simp [h4]; omega, h5', h8', rfl, h7⟩
  | request p free =>
    obtain ⟨hl, h1, h2, w, Gr, X, h3, h4, h5, h8, h6, h7⟩ := hi
    simp only at hl h1 h2 h6
    subst h1 h2 hl h6
    have hlen := congrArg List.length h5
    have hle := req_len (rsv := rsv) (port := port) hh
    simp only [List.length_append, List.cons_append, List.flatten_cons] at hlen
    have e1 : r.length ≤ free := by omega
    have e0 : free ≠ 0 := by omega
    have e2 : leave free r t = t := by simp [leave, e1]
    have e3 : r.take free = r := List.take_of_length_le e1
    have hne : r ≠ [] := fun hx => h8 (by simp [hx])
    have h5' : w ++ r ++ (t ++ X).flatten = encodeReq 5 1 rsv h port := by simpa using h5
    have hf : feed p2Byte P2.init (w ++ r) = feed p2Byte p r := by rw [feed_append, h3]
    have h8' : [] ∉ t ++ X := fun hx => h8 (by simp at hx; simp [hx])
    simp only [step, readRequest, e2, e3, if_neg e0]
    by_cases hrest : (t ++ X).flatten = []
    · have hnil := flatten_nil hrest h8'
      rw [List.append_eq_nil_iff] at hnil
      obtain ⟨rfl, rfl⟩ := hnil
      obtain ⟨q, hq, hqa⟩ := feed_req_full rsv h port hh
      have hwr : w ++ r = encodeReq 5 1 rsv h port := by simpa using h5'
      rw [← hwr, hf] at hq
      have hu := used_exact hne hq (fun a u hau hu => by
        obtain ⟨p', hp'⟩ := feed_req_part (w := w ++ a) (u := u) hh (by rw [List.append_assoc, ← hau, hwr]) hu
        rw [feed_append, h3] at hp'
        exact ⟨p', hp'⟩) []
      rw [List.append_nil] at hu
      rw [hq]
      simp only [hu, hqa]
      have hD : c = D.map (·, 12) := by simpa using h7
      cases h <;> exact ⟨by simp [wanted], rfl, rfl, rfl, rfl, hD⟩
    · obtain ⟨p', hp'⟩ := feed_req_part (w := w ++ r) (u := (t ++ X).flatten) hh h5' hrest
      rw [← hf, hp']
      exact ⟨rfl, rfl, rfl, w ++ r, t ++ X, X, hp', by simp [h4]; omega, h5', h8', rfl, h7⟩
  | greetRsp u => exact hi
  | connect a => exact hi
  | reply u => exact hi
  | relay =>
    obtain ⟨hl, h1, h2⟩ := hi
    exact ⟨hl, h1, by simpa [step] using h2⟩
  | closed => exact hi
  | crash => exact hi

theorem inv_write (hR : R.flatten = encodeReq 5 1 rsv h port) (hR0 : [] ∉ R) (n : Nat)
    (hi : Inv hdr G R D v ms rsv h port c s) : Inv hdr G R D v ms rsv h port c (step admit s (.write n)) := by
  obtain ⟨ph, sk, wi, up, lo⟩ := s
  cases ph with
  | greetRsp u =>
    obtain ⟨hl, h1, h2, h3, h4, h5⟩ := hi
    simp only at hl h1 h3 h4
    subst hl h1 h4
    simp only [step]
    split
    · next he =>
      have he : u.drop (n + 1) = [] := by simpa using he
      have ht : u.take (n + 1) = u := by have := List.take_append_drop (n + 1) u; rwa [he, List.append_nil] at this
      rw [ht, h3]
      exact ⟨rfl, rfl, rfl, [], R, R, rfl, by simp [metaN], by simpa using hR, hR0, rfl, h5⟩
    · next he =>
      refine ⟨rfl, rfl, ?_, ?_, rfl, h5⟩
      · simpa using he
      · simpa using h3
  | reply u =>
    obtain ⟨hl, h1, ⟨ip, h2⟩, h3, h4, h5⟩ := hi
    simp only at hl h2 h3 h4
    subst hl h3 h4
    simp only [step]
    split
    · next he =>
      have he : u.drop (n + 1) = [] := by simpa using he
      have ht : u.take (n + 1) = u := by have := List.take_append_drop (n + 1) u; rwa [he, List.append_nil] at this
      rw [ht, h2, h5]
      exact ⟨rfl, ⟨ip, rfl⟩, by simp [Function.comp_def]⟩
    · next he =>
      refine ⟨rfl, ?_, ⟨ip, ?_⟩, rfl, rfl, h5⟩
      · simpa using he
      · simpa using h2
  | _ => exact hi

theorem inv_connected (ip : List UInt8)
    (hi : Inv hdr G R D v ms rsv h port c s) : Inv hdr G R D v ms rsv h port c (step admit s (.connected ip)) := by
  obtain ⟨ph, sk, wi, up, lo⟩ := s
  cases ph with
  | connect a =>
    obtain ⟨hl, h1, h2, h3, h4, h5⟩ := hi
    simp only at hl h2 h3 h4
    subst hl h1 h2 h3 h4
    refine ⟨rfl, ?_, ⟨ip, rfl⟩, rfl, rfl, h5⟩
    intro e
    have := established_length h port ip
    rw [e] at this
    simp at this
  | _ => exact hi

theorem inv_play (H G R D : List (List UInt8)) (v : UInt8) (ms : List UInt8) (rsv : UInt8) (h : Host) (port : Nat)
    (hH : H.flatten.length = 36) (hH0 : [] ∉ H) (ha : admit H.flatten = true)
    (hm : 1 ≤ ms.length ∧ ms.length ≤ 255) (hG : G.flatten = encodeGreeting v ms) (hG0 : [] ∉ G)
    (hR : R.flatten = encodeReq 5 1 rsv h port) (hR0 : [] ∉ R) (hh : HostOk h)
    (es : List Ev) (c : List (List UInt8 × Nat)) (s : St) (hp : play admit (script H G R D) init es = some (c, s)) :
    Inv H.flatten G R D v ms rsv h port c s := by
  have key : ∀ (es : List Ev) (c0 : List (List UInt8 × Nat)) (s0 : St), Inv H.flatten G R D v ms rsv h port c0 s0 →
      play admit c0 s0 es = some (c, s) → Inv H.flatten G R D v ms rsv h port c s := by
    intro es
    induction es with
    | nil => intro c0 s0 hi he; simp only [play, Option.some.injEq, Prod.mk.injEq] at he; obtain ⟨rfl, rfl⟩ := he; exact hi
    | cons e es ih =>
      intro c0 s0 hi he
      cases e with
      | arrive r =>
        cases c0 with
        | nil => simp [play] at he
        | cons x c0 =>
          obtain ⟨r', k⟩ := x
          simp only [play] at he
          split at he
          · next hk => obtain ⟨rfl, hk⟩ := hk; exact ih _ _ (inv_arrive hi hk) he
          · cases he
      | read => exact ih _ _ (inv_read hH ha hm hG hG0 hh hi) he
      | write n => exact ih _ _ (inv_write hR hR0 n hi) he
      | connected ip => exact ih _ _ (inv_connected ip hi) he
      | refused => simp [play] at he
      | fail => simp [play] at he
  exact key es _ _ (by
    refine ⟨rfl, rfl, rfl, by simp, H, H ++ G, rfl, hH0, rfl, rfl⟩) hp

/-- C82, for clients that wait for the answers: whatever the sizes of the client's records and of the server's writes and however they interleave, the session
never closes or crashes and discards nothing; what the client reads is a beginning of the answer to the greeting and the answer to the
request; the server connects to what was asked for; and when the relay runs, both answers were written and exactly the bytes
that follow the request are taken over for the upstream. Missing: clients that send ahead (counterexamples below). -/
theorem c82_waiting_client_partial (H G R D : List (List UInt8)) (v : UInt8) (ms : List UInt8) (rsv : UInt8) (h : Host) (port : Nat)
    (hH : H.flatten.length = 36) (hH0 : [] ∉ H) (ha : admit H.flatten = true)
    (hm : 1 ≤ ms.length ∧ ms.length ≤ 255) (hG : G.flatten = encodeGreeting v ms) (hG0 : [] ∉ G)
    (hR : R.flatten = encodeReq 5 1 rsv h port) (hR0 : [] ∉ R) (hh : HostOk h)
    (es : List Ev) (c : List (List UInt8 × Nat)) (s : St) (hp : play admit (script H G R D) init es = some (c, s)) :
    s.lost = [] ∧ s.phase ≠ .closed ∧ s.phase ≠ .crash ∧
    (∃ rest ip, s.wire ++ rest = [5, 0] ++ established (wanted h port) ip) ∧
    (∀ a, s.phase = .connect a → a = wanted h port) ∧
    (s.phase = .relay → (∃ ip, s.wire = [5, 0] ++ established (wanted h port) ip) ∧
      s.up ++ s.sock.flatten ++ (c.map (·.1)).flatten = D.flatten) := by
  have hi := inv_play H G R D v ms rsv h port hH hH0 ha hm hG hG0 hR hR0 hh es c s hp
  obtain ⟨ph, sk, wi, up, lo⟩ := s
  refine ⟨hi.1, ?_, ?_, ?_, ?_, ?_⟩
  · intro e; simp only at e; subst e; exact hi.2
  · intro e; simp only at e; subst e; exact hi.2
  · obtain ⟨hl, hi⟩ := hi
    cases ph with
    | auth buf => exact ⟨_, [], by rw [hi.1]; rfl⟩
    | greet p f => exact ⟨_, [], by rw [hi.1]; rfl⟩
    | greetRsp u => exact ⟨u ++ established (wanted h port) [], [], by rw [← List.append_assoc, hi.2.2.1]⟩
    | request p f => exact ⟨established (wanted h port) [], [], by rw [hi.1]⟩
    | connect a => exact ⟨established (wanted h port) [], [], by rw [hi.2.1]⟩
    | reply u => obtain ⟨-, ⟨ip, hx⟩, -⟩ := hi; exact ⟨u, ip, hx⟩
    | relay => obtain ⟨⟨ip, hx⟩, -⟩ := hi; exact ⟨[], ip, by simpa using hx⟩
    | closed => exact absurd hi id
    | crash => exact absurd hi id
  · intro a e; simp only at e; subst e; exact hi.2.1
  · intro e; simp only at e; subst e; exact hi.2

/-- C82, for clients that wait for the answers: until the relay runs there is always something that can happen next: an unread record in a phase that
reads, an answer to be written, the upstream connection, or the client may send its next record. -/
theorem c82_no_deadlock_partial (H G R D : List (List UInt8)) (v : UInt8) (ms : List UInt8) (rsv : UInt8) (h : Host) (port : Nat)
    (hH : H.flatten.length = 36) (hH0 : [] ∉ H) (ha : admit H.flatten = true)
    (hm : 1 ≤ ms.length ∧ ms.length ≤ 255) (hG : G.flatten = encodeGreeting v ms) (hG0 : [] ∉ G)
    (hR : R.flatten = encodeReq 5 1 rsv h port) (hR0 : [] ∉ R) (hh : HostOk h)
    (es : List Ev) (c : List (List UInt8 × Nat)) (s : St) (hp : play admit (script H G R D) init es = some (c, s)) :
    s.phase = .relay ∨ (∃ a, s.phase = .connect a) ∨ (∃ u, u ≠ [] ∧ (s.phase = .greetRsp u ∨ s.phase = .reply u)) ∨
    (s.sock ≠ [] ∧ ((∃ b, s.phase = .auth b) ∨ (∃ p f, s.phase = .greet p f) ∨ (∃ p f, s.phase = .request p f))) ∨
    (∃ r k c', c = (r, k) :: c' ∧ k ≤ s.wire.length) := by
  have hi := inv_play H G R D v ms rsv h port hH hH0 ha hm hG hG0 hR hR0 hh es c s hp
  obtain ⟨ph, sk, wi, up, lo⟩ := s
  obtain ⟨hl, hi⟩ := hi
  by_cases hs : sk = []
  · subst hs
    cases ph with
    | auth buf =>
      obtain ⟨h1, h2, h3, Hr, X, h4, h5, h6, h7⟩ := hi
      simp only at h6
      have hlen := congrArg List.length h4
      rw [List.length_append, hH] at hlen
      cases X with
      | nil =>
        simp only [List.append_nil, List.append_eq_nil_iff] at h6
        obtain ⟨rfl, rfl⟩ := h6
        simp at hlen; omega
      | cons x X => exact .inr (.inr (.inr (.inr ⟨x, 0, _, by simpa using h7, by simp⟩)))
    | greet p f =>
      obtain ⟨h1, h2, w, Gr, X, h3, h4, h5, h8, h6, h7⟩ := hi
      simp only at h6
      cases X with
      | nil =>
        subst h6
        obtain ⟨q, hq⟩ := feed_greet_full v ms hm
        rw [← h5] at hq
        simp only [List.append_nil, List.flatten_nil] at hq
        rw [h3] at hq; cases hq
      | cons x X => exact .inr (.inr (.inr (.inr ⟨x, 0, _, by simpa using h7, by simp⟩)))
    | greetRsp u => exact .inr (.inr (.inl ⟨u, hi.2.1, .inl rfl⟩))
    | request p f =>
      obtain ⟨h1, h2, w, Gr, X, h3, h4, h5, h8, h6, h7⟩ := hi
      simp only at h6 h1
      cases X with
      | nil =>
        subst h6
        obtain ⟨q, hq, -⟩ := feed_req_full rsv h port hh
        rw [← h5] at hq
        simp only [List.append_nil, List.flatten_nil] at hq
        rw [h3] at hq; cases hq
      | cons x X => exact .inr (.inr (.inr (.inr ⟨x, 2, _, by simpa using h7, by simp [h1]⟩)))
    | connect a => exact .inr (.inl ⟨a, rfl⟩)
    | reply u => exact .inr (.inr (.inl ⟨u, hi.1, .inr rfl⟩))
    | relay => exact .inl rfl
    | closed => exact absurd hi id
    | crash => exact absurd hi id
  · cases ph with
    | auth buf => exact .inr (.inr (.inr (.inl ⟨hs, .inl ⟨buf, rfl⟩⟩)))
    | greet p f => exact .inr (.inr (.inr (.inl ⟨hs, .inr (.inl ⟨p, f, rfl⟩)⟩)))
    | greetRsp u => exact .inr (.inr (.inl ⟨u, hi.2.1, .inl rfl⟩))
    | request p f => exact .inr (.inr (.inr (.inl ⟨hs, .inr (.inr ⟨p, f, rfl⟩)⟩)))
    | connect a => exact .inr (.inl ⟨a, rfl⟩)
    | reply u => exact .inr (.inr (.inl ⟨u, hi.1, .inr rfl⟩))
    | relay => exact .inl rfl
    | closed => exact absurd hi id
    | crash => exact absurd hi id

end

/-- A case for `c82_waiting_client_partial` and `c82_no_deadlock_partial`: a header in two records, `10.0.0.1:80`, and data. -/
example :
    let H : List (List UInt8) := [List.replicate 30 7, List.replicate 6 8]
    let es : List Ev := [.arrive (List.replicate 30 7), .read, .arrive (List.replicate 6 8), .arrive [5, 1, 0], .read, .read, .write 0, .write 5,
      .arrive [5, 1], .read, .arrive [0, 1, 10, 0, 0, 1, 0, 80], .read, .connected [], .write 3, .write 9, .arrive [1, 2, 3], .read]
    H.flatten.length = 36 ∧ [5, 1, 0] = encodeGreeting 5 [0] ∧ [5, 1, 0, 1, 10, 0, 0, 1, 0, 80] = encodeReq 5 1 0 (.v4 10 0 0 1) 80 ∧
    play (fun _ => true) (script H [[5, 1, 0]] [[5, 1], [0, 1, 10, 0, 0, 1, 0, 80]] [[1, 2, 3], [4]]) init es =
      some ([([4], 12)], ⟨.relay, [], [5, 0, 5, 0, 0, 1, 0, 10, 0, 0, 80, 0], [1, 2, 3], []⟩) := by
  decide +kernel

/-! ### Clients that send ahead -/

theorem run_append (s : St) (a b : List Ev) : run admit s (a ++ b) = run admit (run admit s a) b := by
  simp [run, List.foldl_append]

theorem start_run (hdr : List UInt8) (hl : hdr.length = 36) (ha : admit hdr = true) :
    run admit init [.arrive hdr, .read] = ⟨.greet P1.init 12288, [], [], [], []⟩ := by
  have e1 : hdr.length ≤ 12288 := by omega
  simp [run, step, init, readAuth, metaN, leave, hl, hdrLen, ha, List.take_of_length_le e1]

theorem greet_run (v : UInt8) (ms tail : List UInt8) (hm : 1 ≤ ms.length ∧ ms.length ≤ 255) (ht : tail.length ≤ 12000) :
    run admit ⟨.greet P1.init 12288, [], [], [], []⟩ [.arrive (encodeGreeting v ms ++ tail), .read] = ⟨.greetRsp [5, 0], [], [], [], tail⟩ := by
  obtain ⟨q, hq⟩ := feed_greet_full v ms hm
  have hne : encodeGreeting v ms ≠ [] := by simp [encodeGreeting]
  have hu := used_exact hne hq (fun a u e hu => feed_greet_part hm e.symm hu) tail
  have hlen : (encodeGreeting v ms ++ tail).length ≤ 12288 := by simp [encodeGreeting]; omega
  simp only [run, List.foldl_cons, List.foldl_nil, step, List.nil_append, readGreet, leave, hlen, if_true, List.take_of_length_le hlen,
    feed_stop_append _ _ _ _ _ hq, hu]
  simp [p1Reply]

theorem reply_run (x : List UInt8) : run admit ⟨.greetRsp [5, 0], [], [], [], x⟩ [.write 1] = ⟨.request P2.init 12288, [], [5, 0], [], x⟩ := rfl

theorem req_run (rsv : UInt8) (h : Host) (port : Nat) (tail lo : List UInt8) (hh : HostOk h) (ht : tail.length ≤ 12000) :
    run admit ⟨.request P2.init 12288, [], [5, 0], [], lo⟩ [.arrive (encodeReq 5 1 rsv h port ++ tail), .read] =
      ⟨.connect (wanted h port), [], [5, 0], [], lo ++ tail⟩ := by
  obtain ⟨q, hq, hqa⟩ := feed_req_full rsv h port hh
  have hne : encodeReq 5 1 rsv h port ≠ [] := by simp [encodeReq]
  have hu := used_exact hne hq (fun a u e hu => feed_req_part hh e.symm hu) tail
  have hle := req_len (rsv := rsv) (port := port) hh
  have hlen : (encodeReq 5 1 rsv h port ++ tail).length ≤ 12288 := by simp; omega
  simp only [run, List.foldl_cons, List.foldl_nil, step, List.nil_append, readRequest, leave, hlen, if_true, List.take_of_length_le hlen,
    feed_stop_append _ _ _ _ _ hq, hu, hqa]
  cases h <;> simp [wanted]

/-- C82 is false for a client that sends its request together with the greeting: the request is discarded, and after its answer to the greeting the server
waits for a request that will never come; nothing is left to read. -/
theorem c82_greeting_counterexample (hdr : List UInt8) (hl : hdr.length = 36) (ha : admit hdr = true) (v : UInt8) (ms : List UInt8)
    (hm : 1 ≤ ms.length ∧ ms.length ≤ 255) (ahead : List UInt8) (ht : ahead.length ≤ 12000) :
    run admit init ([.arrive hdr, .read] ++ [.arrive (encodeGreeting v ms ++ ahead), .read] ++ [.write 1]) =
      ⟨.request P2.init 12288, [], [5, 0], [], ahead⟩ := by
  rw [run_append, run_append, start_run hdr hl ha, greet_run v ms ahead hm ht, reply_run]

/-- Case: the greeting and, in the same segment, the first byte of the request. -/
example : run (fun _ => true) init ([.arrive (List.replicate 36 7), .read] ++ [.arrive (encodeGreeting 5 [0] ++ [5]), .read] ++ [.write 1]) =
    ⟨.request P2.init 12288, [], [5, 0], [], [5]⟩ :=
  c82_greeting_counterexample _ (by decide) rfl 5 [0] (by decide) [5] (by decide)

/-- C82 is false for a client that sends data together with its request: they are discarded, and the relay starts without them. -/
theorem c82_request_counterexample (hdr : List UInt8) (hl : hdr.length = 36) (ha : admit hdr = true) (v : UInt8) (ms : List UInt8)
    (hm : 1 ≤ ms.length ∧ ms.length ≤ 255) (rsv : UInt8) (h : Host) (port : Nat) (hh : HostOk h) (ip ahead : List UInt8) (ht : ahead.length ≤ 12000) :
    run admit init ([.arrive hdr, .read] ++ [.arrive (encodeGreeting v ms ++ []), .read] ++ [.write 1] ++
      [.arrive (encodeReq 5 1 rsv h port ++ ahead), .read] ++ [.connected ip, .write 9]) =
      ⟨.relay, [], [5, 0] ++ established (wanted h port) ip, [], ahead⟩ := by
  rw [run_append, run_append, run_append, run_append, start_run hdr hl ha, greet_run v ms [] hm (by simp), reply_run, req_run rsv h port ahead [] hh ht]
  have e := established_length h port ip
  simp [run, step, List.take_of_length_le (Nat.le_of_eq e), List.drop_of_length_le (Nat.le_of_eq e)]

/-- Case: three bytes of data with the request for `10.0.0.1:80`. -/
example : run (fun _ => true) init ([.arrive (List.replicate 36 7), .read] ++ [.arrive (encodeGreeting 5 [0] ++ []), .read] ++ [.write 1] ++
    [.arrive (encodeReq 5 1 0 (.v4 10 0 0 1) 80 ++ [1, 2, 3]), .read] ++ [.connected [], .write 9]) =
    ⟨.relay, [], [5, 0] ++ established (wanted (.v4 10 0 0 1) 80) [], [], [1, 2, 3]⟩ :=
  c82_request_counterexample _ (by decide) rfl 5 [0] (by decide) 0 (.v4 10 0 0 1) 80 trivial [] [1, 2, 3] (by decide)

/-! ### C81: the method is one that was offered -/

/-- What RFC 1928 (section 3) asks of the answer to a greeting: version five and one of the offered methods, or `FF` when none is acceptable. -/
def MethodOk (offered : List UInt8) (answer : List UInt8) : Prop :=
  ∃ m, answer = [5, m] ∧ (m ∈ offered ∨ m = 255)

/-- C81, for clients that offer the method without authentication: the answer to a greeting selects an offered method. -/
theorem c81_offered_partial (hdr : List UInt8) (hl : hdr.length = 36) (ha : admit hdr = true) (v : UInt8) (ms : List UInt8)
    (hm : 1 ≤ ms.length ∧ ms.length ≤ 255) (h0 : 0 ∈ ms) :
    MethodOk ms (run admit init ([.arrive hdr, .read] ++ [.arrive (encodeGreeting v ms ++ []), .read] ++ [.write 1])).wire := by
  rw [run_append, run_append, start_run hdr hl ha, greet_run v ms [] hm (by simp), reply_run]
  exact ⟨0, rfl, .inl h0⟩

/-- C81 is false otherwise: a greeting of any version that does not offer this method is answered in the same way, and the session goes on. -/
theorem c81_not_offered_counterexample (hdr : List UInt8) (hl : hdr.length = 36) (ha : admit hdr = true) (v : UInt8) (ms : List UInt8)
    (hm : 1 ≤ ms.length ∧ ms.length ≤ 255) (h0 : 0 ∉ ms) :
    let s := run admit init ([.arrive hdr, .read] ++ [.arrive (encodeGreeting v ms ++ []), .read] ++ [.write 1])
    ¬ MethodOk ms s.wire ∧ s.phase = .request P2.init 12288 := by
  rw [run_append, run_append, start_run hdr hl ha, greet_run v ms [] hm (by simp), reply_run]
  refine ⟨?_, rfl⟩
  rintro ⟨m, e, h⟩
  simp at e
  subst e
  rcases h with h | h
  · exact h0 h
  · revert h; decide

/-- Cases for these (`c81_offered_partial` and its counterexample): user name and password offered besides the method without authentication, or alone. -/
example : (0 : UInt8) ∈ [2, 0] ∧ (0 : UInt8) ∉ [2] ∧
    (run (fun _ => true) init ([.arrive (List.replicate 36 7), .read] ++ [.arrive (encodeGreeting 5 [2] ++ []), .read] ++ [.write 1])).wire = [5, 0] := by
  decide +kernel

/-! ### C83: the answer to a request -/

/-- C83: success is reported only after the upstream connection was established: without that, a client never reads more than the answer to its
greeting, and nothing is taken over for an upstream, whatever the client sends and whatever fails. -/
theorem c83_no_false_success_partial (es : List Ev) (hn : ∀ ip, .connected ip ∉ es) :
    (run admit init es).wire <+: [5, 0] ∧ (run admit init es).up = [] := by
  have key : ∀ (es : List Ev) (s : St), (∀ ip, .connected ip ∉ es) →
      (s.up = [] ∧ match s.phase with
        | .greetRsp u => s.wire ++ u = [5, 0]
        | .reply _ => False
        | .relay => False
        | .auth _ => s.wire = []
        | .greet .. => s.wire = []
        | _ => s.wire <+: [5, 0]) →
      (run admit s es).wire <+: [5, 0] ∧ (run admit s es).up = [] := by
    intro es
    induction es with
    | nil =>
      intro s _ ⟨h1, h2⟩
      refine ⟨?_, h1⟩
      show s.wire <+: [5, 0]
      cases hp : s.phase <;> rw [hp] at h2 <;> first | exact ⟨_, h2⟩ | (simp only at h2; rw [h2]; exact List.nil_prefix) | exact h2 | exact absurd h2 id
    | cons e es ih =>
      intro s hn ⟨h1, h2⟩
      refine ih (step admit s e) (fun ip hx => hn ip (by simp [hx])) ?_
      obtain ⟨ph, sk, wi, up, lo⟩ := s
      simp only at h1 h2
      subst h1
      cases e with
      | arrive r => exact ⟨rfl, h2⟩
      | read =>
        cases sk with
        | nil => exact ⟨rfl, h2⟩
        | cons r t =>
          cases ph with
          | auth b =>
            simp only at h2; subst h2
            simp only [step, readAuth]
            split
            · exact ⟨rfl, rfl⟩
            · split
              · exact ⟨rfl, rfl⟩
              · exact ⟨rfl, by simp⟩
          | greet p f =>
            simp only at h2; subst h2
            simp only [step, readGreet]
            split
            · exact ⟨rfl, by simp⟩
            · split
              · exact ⟨rfl, rfl⟩
              · exact ⟨rfl, rfl⟩
              · exact ⟨rfl, by simp⟩
          | request p f =>
            simp only [step, readRequest]
            split
            · exact ⟨rfl, h2⟩
            · split
              · exact ⟨rfl, h2⟩
              · exact ⟨rfl, h2⟩
              · exact ⟨rfl, h2⟩
              · split
                · exact ⟨rfl, h2⟩
                · exact ⟨rfl, h2⟩
                · exact ⟨rfl, h2⟩
          | relay => exact absurd h2 id
          | _ => exact ⟨rfl, h2⟩
      | write n =>
        cases ph with
        | greetRsp u =>
          simp only at h2
          by_cases he : u.drop (n + 1) = []
          · have ht : u.take (n + 1) = u := by have := List.take_append_drop (n + 1) u; rwa [he, List.append_nil] at this
            simp only [step, he, List.isEmpty_nil, if_true, ht, h2]
            exact ⟨trivial, List.prefix_refl _⟩
          · have hb : (u.drop (n + 1)).isEmpty = false := by simpa using he
            simp only [step, hb, Bool.false_eq_true, if_false]
            exact ⟨trivial, by simpa using h2⟩
        | reply u => exact absurd h2 id
        | _ => exact ⟨rfl, h2⟩
      | connected ip => exact absurd (by simp) (hn ip)
      | refused =>
        cases ph <;> exact ⟨rfl, h2⟩
      | fail =>
        cases ph <;> first
          | exact ⟨rfl, h2⟩
          | exact absurd h2 id
          | (simp only at h2; refine ⟨rfl, ?_⟩; show wi <+: [5, 0]; rw [h2]; exact List.nil_prefix)
          | exact ⟨rfl, ⟨_, h2⟩⟩
  exact key es init hn ⟨rfl, rfl⟩

/-- Case: a request for `10.0.0.1:80` whose connection is never established. -/
example : (run (fun _ => true) init [.arrive (List.replicate 36 7), .read, .arrive [5, 1, 0], .read, .write 5, .arrive [5, 1, 0, 1, 10, 0, 0, 1, 0, 80], .read,
    .write 9]).wire = [5, 0] := by decide +kernel

theorem closed_run (s : St) (h : s.phase = .closed) (es : List Ev) :
    (run admit s es).phase = .closed ∧ (run admit s es).wire = s.wire := by
  induction es generalizing s with
  | nil => exact ⟨h, rfl⟩
  | cons e es ih =>
    have h1 : (step admit s e).phase = .closed ∧ (step admit s e).wire = s.wire := by
      obtain ⟨ph, sk, wi, up, lo⟩ := s
      simp only at h
      subst h
      cases e with
      | read => cases sk <;> exact ⟨rfl, rfl⟩
      | _ => exact ⟨rfl, rfl⟩
    have := ih (step admit s e) h1.1
    exact ⟨this.1, this.2.trans h1.2⟩

/-- What RFC 1928 (section 6) asks for when a request cannot be served: a reply with a reason other than zero. -/
def ToldWhy (wire : List UInt8) : Prop := ∃ rep rest, rep ≠ 0 ∧ wire = [5, 0] ++ [5, rep] ++ rest

/-- C83 is false: a request with a command other than CONNECT gets no reply; the session is closed after the answer to the greeting. -/
theorem c83_command_counterexample (hdr : List UInt8) (hl : hdr.length = 36) (ha : admit hdr = true) (v : UInt8) (ms : List UInt8)
    (hm : 1 ≤ ms.length ∧ ms.length ≤ 255) (cmd rsv a b c d : UInt8) (port : Nat) (hc : cmd ≠ 1) (later : List Ev) :
    let s := run admit init (([.arrive hdr, .read] ++ [.arrive (encodeGreeting v ms ++ []), .read] ++ [.write 1] ++
      [.arrive (encodeReq 5 cmd rsv (.v4 a b c d) port), .read]) ++ later)
    s.phase = .closed ∧ s.wire = [5, 0] ∧ ¬ ToldWhy s.wire := by
  intro s
  have hc' := c02_reject_version_command [.data 5 ([cmd, rsv, 1, a, b, c, d] ++ encodePort port)] 5 cmd rsv (.v4 a b c d) port [] trivial
    (by simp [streamOf, encodeReq, encodeHost]) (.inr hc)
  rw [p2Req_eq] at hc'
  have hst : streamOf [.data 5 ([cmd, rsv, 1, a, b, c, d] ++ encodePort port)] = encodeReq 5 cmd rsv (.v4 a b c d) port := by
    simp [streamOf, encodeReq, encodeHost]
  rw [hst] at hc'
  have hf : feed p2Byte P2.init (encodeReq 5 cmd rsv (.v4 a b c d) port) = .stop .close := by
    cases hx : feed p2Byte P2.init (encodeReq 5 cmd rsv (.v4 a b c d) port) with
    | cont p => rw [hx] at hc'; simp [failsAtEnd] at hc'
    | stop r => rw [hx] at hc'; simpa using hc'
  have hs : s = run admit ⟨.closed, [], [5, 0], [], []⟩ later := by
    show run admit init _ = _
    rw [run_append, run_append, run_append, run_append, start_run hdr hl ha, greet_run v ms [] hm (by simp), reply_run]
    congr 1
    have hlen : (encodeReq 5 cmd rsv (.v4 a b c d) port).length ≤ 12288 := by simp [encodeReq, encodeHost, encodePort]
    simp only [run, List.foldl_cons, List.foldl_nil, step, List.nil_append, readRequest, leave, hlen, if_true, List.take_of_length_le hlen, hf]
    simp
  obtain ⟨h1, h2⟩ := closed_run (admit := admit) ⟨.closed, [], [5, 0], [], []⟩ rfl later
  rw [← hs] at h1 h2
  refine ⟨h1, h2, ?_⟩
  rintro ⟨rep, rest, -, e⟩
  rw [h2] at e
  simp at e

/-- Case: BIND (2) to `10.0.0.1:80`: nothing but the answer to the greeting is written. -/
example : (run (fun _ => true) init [.arrive (List.replicate 36 7), .read, .arrive [5, 1, 0], .read, .write 5, .arrive [5, 2, 0, 1, 10, 0, 0, 1, 0, 80], .read,
    .write 9]).wire = [5, 0] := by decide +kernel

/-- C83 is false: when the destination cannot be reached or its name cannot be resolved the client gets no reply either. -/
theorem c83_refused_counterexample (hdr : List UInt8) (hl : hdr.length = 36) (ha : admit hdr = true) (v : UInt8) (ms : List UInt8)
    (hm : 1 ≤ ms.length ∧ ms.length ≤ 255) (rsv : UInt8) (h : Host) (port : Nat) (hh : HostOk h) (later : List Ev) :
    let s := run admit init (([.arrive hdr, .read] ++ [.arrive (encodeGreeting v ms ++ []), .read] ++ [.write 1] ++
      [.arrive (encodeReq 5 1 rsv h port ++ []), .read] ++ [.refused]) ++ later)
    s.phase = .closed ∧ s.wire = [5, 0] ∧ ¬ ToldWhy s.wire := by
  intro s
  have hs : s = run admit ⟨.closed, [], [5, 0], [], []⟩ later := by
    show run admit init _ = _
    rw [run_append, run_append, run_append, run_append, run_append, start_run hdr hl ha, greet_run v ms [] hm (by simp), reply_run,
      req_run rsv h port [] [] hh (by simp)]
    rfl
  obtain ⟨h1, h2⟩ := closed_run (admit := admit) ⟨.closed, [], [5, 0], [], []⟩ rfl later
  rw [← hs] at h1 h2
  refine ⟨h1, h2, ?_⟩
  rintro ⟨rep, rest, -, e⟩
  rw [h2] at e
  simp at e

/-- Case: `10.0.0.1:80` refuses the connection: nothing but the answer to the greeting is written. -/
example : (run (fun _ => true) init [.arrive (List.replicate 36 7), .read, .arrive [5, 1, 0], .read, .write 5, .arrive [5, 1, 0, 1, 10, 0, 0, 1, 0, 80], .read,
    .refused, .write 9]).wire = [5, 0] := by decide +kernel

/-! ### C86: nothing before the header was admitted -/

/-- The records that have arrived. -/
def arrived : List Ev → List (List UInt8)
  | [] => []
  | .arrive r :: es => r :: arrived es
  | _ :: es => arrived es

theorem arrived_append (a b : List Ev) : arrived (a ++ b) = arrived a ++ arrived b := by
  induction a with
  | nil => rfl
  | cons e a ih => cases e <;> simp [arrived, ih]

/-- What has been admitted, as long as the session is past the header. -/
def Past (admit : List UInt8 → Bool) (got : List UInt8) : Prop := ∃ b, admit b = true ∧ 36 ≤ b.length ∧ b <+: got

theorem Past.mono {a b : List UInt8} (h : Past admit a) : Past admit (a ++ b) := by
  obtain ⟨x, h1, h2, h3⟩ := h
  exact ⟨x, h1, h2, h3.trans (List.prefix_append a b)⟩

/-- What holds of a session that has received `got`. -/
def Seen (admit : List UInt8 → Bool) (got : List UInt8) (s : St) : Prop :=
  match s.phase with
  | .auth b => s.wire = [] ∧ s.up = [] ∧ b ++ s.sock.flatten = got
  | .closed => (s.wire = [] ∧ s.up = []) ∨ Past admit got
  | .crash => (s.wire = [] ∧ s.up = []) ∨ Past admit got
  | _ => Past admit got

theorem leave_flatten (n : Nat) (r : List UInt8) (t : List (List UInt8)) : r.take n ++ (leave n r t).flatten = r ++ t.flatten := by
  unfold leave
  split
  · next h => rw [List.take_of_length_le h]
  · rw [List.flatten_cons, ← List.append_assoc, List.take_append_drop]

/-- C86: to a peer that was not admitted not a single byte is sent, and none of its bytes reaches an upstream: if anything was written to the client, taken over
or if the session got past the header at all, then the first bytes received, at least 36 of them, were admitted. -/
theorem c86_nothing_before_admission (es : List Ev)
    (h : (run admit init es).wire ≠ [] ∨ (run admit init es).up ≠ [] ∨ ∃ a, (run admit init es).phase = .connect a) :
    ∃ b, admit b = true ∧ 36 ≤ b.length ∧ b <+: (arrived es).flatten := by
  have key : ∀ (es : List Ev) (s : St) (got : List UInt8),
      Seen admit got s →
      ((run admit s es).wire ≠ [] ∨ (run admit s es).up ≠ [] ∨ ∃ a, (run admit s es).phase = .connect a) → Past admit (got ++ (arrived es).flatten) := by
    intro es
    induction es with
    | nil =>
      intro s got hi hx
      simp only [arrived, List.flatten_nil, List.append_nil]
      obtain ⟨ph, sk, wi, up, lo⟩ := s
      cases ph with
      | auth b => obtain ⟨h1, h2, -⟩ := hi; simp only at h1 h2; subst h1 h2; rcases hx with h | h | ⟨a, h⟩ <;> first | exact absurd rfl h | cases h
      | closed =>
        rcases hi with ⟨h1, h2⟩ | hi
        · simp only at h1 h2; subst h1 h2; rcases hx with h | h | ⟨a, h⟩ <;> first | exact absurd rfl h | cases h
        · exact hi
      | crash =>
        rcases hi with ⟨h1, h2⟩ | hi
        · simp only at h1 h2; subst h1 h2; rcases hx with h | h | ⟨a, h⟩ <;> first | exact absurd rfl h | cases h
        · exact hi
      | _ => exact hi
    | cons e es ih =>
      intro s got hi hx
      obtain ⟨ph, sk, wi, up, lo⟩ := s
      by_cases he : ∃ r, e = .arrive r
      · obtain ⟨r, rfl⟩ := he
        have := ih _ (got ++ r) (by
          cases ph with
          | auth b => obtain ⟨h1, h2, h3⟩ := hi; exact ⟨h1, h2, by simp [step, ← h3]⟩
          | closed => exact hi.imp_right Past.mono
          | crash => exact hi.imp_right Past.mono
          | greet p f => exact Past.mono hi
          | greetRsp u => exact Past.mono hi
          | request p f => exact Past.mono hi
          | connect a => exact Past.mono hi
          | reply u => exact Past.mono hi
          | relay => exact Past.mono hi) hx
        simpa [arrived] using this
      · have ha : arrived (e :: es) = arrived es := by
          cases e with
          | arrive r => exact absurd ⟨r, rfl⟩ he
          | _ => rfl
        rw [ha]
        refine ih (step admit ⟨ph, sk, wi, up, lo⟩ e) got ?_ hx
        cases e with
        | arrive r => exact absurd ⟨r, rfl⟩ he
        | read =>
          cases sk with
          | nil => exact hi
          | cons r t =>
            cases ph with
            | auth b =>
              obtain ⟨h1, h2, h3⟩ := hi
              simp only at h1 h2 h3
              subst h1 h2
              have h4 : b ++ r.take (metaN - b.length) ++ (leave (metaN - b.length) r t).flatten = got := by
                rw [List.append_assoc, leave_flatten, ← h3, List.flatten_cons]
              simp only [step, readAuth]
              split
              · exact ⟨rfl, rfl, h4⟩
              · next hge =>
                split
                · next hadm => exact ⟨_, hadm, by simp only [hdrLen] at hge; omega, ⟨_, h4⟩⟩
                · exact .inl ⟨rfl, rfl⟩
            | greet p f =>
              simp only [step, readGreet]
              split
              · exact .inr hi
              · split
                · exact hi
                · exact hi
                · exact .inr hi
            | request p f =>
              simp only [step, readRequest]
              split
              · exact .inr hi
              · split
                · exact hi
                · exact .inr hi
                · exact .inr hi
                · split
                  · exact .inr hi
                  · exact .inr hi
                  · exact hi
            | _ => exact hi
        | write n =>
          cases ph with
          | greetRsp u => cases hb : (u.drop (n + 1)).isEmpty <;> (simp only [step, hb]; exact hi)
          | reply u => cases hb : (u.drop (n + 1)).isEmpty <;> (simp only [step, hb]; exact hi)
          | _ => exact hi
        | connected ip => cases ph <;> exact hi
        | refused => cases ph <;> first | exact hi | exact .inr hi
        | fail =>
          cases ph with
          | auth b => exact .inl ⟨hi.1, hi.2.1⟩
          | closed => exact hi
          | crash => exact hi
          | _ => exact .inr hi
  have := key es init [] ⟨rfl, rfl, rfl⟩ h
  simpa [Past] using this

/-- C86: what is taken over for the upstream is part of what the client sent, without gaps and in order, whatever the client does: it is followed in the
client's stream by the unread bytes. Missing for the full claim: over TLS, bytes taken over can be sent back to the client instead (`c86_gap_counterexample`,
`Verif.TlsRelay`). -/
theorem c86_contiguous_partial (es : List Ev) : ((run admit init es).up ++ (run admit init es).sock.flatten) <:+ (arrived es).flatten := by
  have key : ∀ (es : List Ev) (s : St) (got : List UInt8), (s.up ++ s.sock.flatten) <:+ got → (s.phase = .relay ∨ s.phase = .closed ∨ s.up = []) →
      ((run admit s es).up ++ (run admit s es).sock.flatten) <:+ (got ++ (arrived es).flatten) := by
    intro es
    induction es with
    | nil => intro s got h _; simpa [arrived, run] using h
    | cons e es ih =>
      intro s got hs hp
      have hlv : ∀ n r t, (leave n r t).flatten <:+ (r :: t : List (List UInt8)).flatten := by
        intro n r t
        exact ⟨r.take n, by rw [leave_flatten]; rfl⟩
      obtain ⟨ph, sk, wi, up, lo⟩ := s
      by_cases he : ∃ r, e = .arrive r
      · obtain ⟨r, rfl⟩ := he
        have := ih (step admit ⟨ph, sk, wi, up, lo⟩ (.arrive r)) (got ++ r) (by
          obtain ⟨pre, hpre⟩ := hs
          exact ⟨pre, by simp [step, ← hpre]⟩) hp
        simpa [arrived, run] using this
      · have ha : arrived (e :: es) = arrived es := by
          cases e with
          | arrive r => exact absurd ⟨r, rfl⟩ he
          | _ => rfl
        rw [ha]
        refine ih (step admit ⟨ph, sk, wi, up, lo⟩ e) got ?_ ?_
        · cases e with
          | arrive r => exact absurd ⟨r, rfl⟩ he
          | read =>
            cases sk with
            | nil => exact hs
            | cons r t =>
              simp only at hs hp
              cases ph with
              | auth b =>
                have hu : up = [] := by rcases hp with h | h | h <;> first | exact h | cases h
                subst hu
                simp only [step, readAuth]
                split
                · exact (hlv _ _ _).trans hs
                · split <;> exact (hlv _ _ _).trans hs
              | greet p f =>
                have hu : up = [] := by rcases hp with h | h | h <;> first | exact h | cases h
                subst hu
                simp only [step, readGreet]
                split
                · exact hs
                · split <;> exact (hlv _ _ _).trans hs
              | request p f =>
                have hu : up = [] := by rcases hp with h | h | h <;> first | exact h | cases h
                subst hu
                simp only [step, readRequest]
                split
                · exact hs
                · split
                  · exact (hlv _ _ _).trans hs
                  · exact (hlv _ _ _).trans hs
                  · exact (hlv _ _ _).trans hs
                  · split <;> exact (hlv _ _ _).trans hs
              | relay => simpa [step] using hs
              | _ => exact hs
          | write n => cases ph <;> exact hs
          | connected ip => cases ph <;> exact hs
          | refused => cases ph <;> exact hs
          | fail => cases ph <;> exact hs
        · cases e with
          | arrive r => exact absurd ⟨r, rfl⟩ he
          | read =>
            cases sk with
            | nil => exact hp
            | cons r t =>
              simp only at hp
              cases ph with
              | auth b =>
                have hu : up = [] := by rcases hp with h | h | h <;> first | exact h | cases h
                subst hu
                simp only [step, readAuth]
                split
                · exact .inr (.inr rfl)
                · split <;> exact .inr (.inr rfl)
              | greet p f =>
                have hu : up = [] := by rcases hp with h | h | h <;> first | exact h | cases h
                subst hu
                simp only [step, readGreet]
                split
                · exact .inr (.inr rfl)
                · split <;> exact .inr (.inr rfl)
              | request p f =>
                have hu : up = [] := by rcases hp with h | h | h <;> first | exact h | cases h
                subst hu
                simp only [step, readRequest]
                split
                · exact .inr (.inr rfl)
                · split
                  · exact .inr (.inr rfl)
                  · exact .inr (.inr rfl)
                  · exact .inr (.inr rfl)
                  · split <;> exact .inr (.inr rfl)
              | relay => exact .inl rfl
              | _ => exact hp
          | write n =>
            cases ph with
            | relay => exact hp
            | closed => exact hp
            | _ =>
              have hu : up = [] := by rcases hp with h | h | h <;> first | exact h | cases h
              subst hu
              exact .inr (.inr rfl)
          | connected ip =>
            cases ph with
            | relay => exact hp
            | closed => exact hp
            | _ =>
              have hu : up = [] := by rcases hp with h | h | h <;> first | exact h | cases h
              subst hu
              exact .inr (.inr rfl)
          | refused =>
            cases ph with
            | relay => exact hp
            | closed => exact hp
            | _ =>
              have hu : up = [] := by rcases hp with h | h | h <;> first | exact h | cases h
              subst hu
              exact .inr (.inr rfl)
          | fail =>
            cases ph with
            | crash =>
              have hu : up = [] := by rcases hp with h | h | h <;> first | exact h | cases h
              subst hu
              exact .inr (.inr rfl)
            | _ => exact .inr (.inl rfl)
  have := key es init [] (by simp [init]) (.inr (.inr rfl))
  simpa using this

/-- A case for `c86_nothing_before_admission`: a header that is admitted, a greeting and its answer. -/
example : (run (fun b => b.take 1 == [9]) init [.arrive (9 :: List.replicate 35 1), .read, .arrive [5, 1, 0], .read, .write 0]).wire = [5] := by
  decide +kernel

end Verif.Serve
