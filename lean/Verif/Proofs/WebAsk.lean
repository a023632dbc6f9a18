import Verif.Proofs.WebConn
import Verif.Props.HttpBody
import Verif.Props.WebRsp
/-
Requests of clients as the web server understands them.
-/
namespace Verif.WebConn
open Verif Verif.Spec.WebConn Verif.HttpSpec

variable {k : Nat} {home index : List UInt8} {E : Nat → Env}

/-- The length of the target. -/
theorem head_uri_len (h : Head) (ok : h.Ok) (extra : List UInt8) (hl : (h.bytes ++ extra).length ≤ 4096)
    (b : UInt8) (bs : List UInt8) (hb : h.bytes ++ extra = b :: bs) (n : Nat) (rx : List Rx) :
    ∃ r, Http.head (n + 1) {} [] 0 (.data b bs :: rx) = .done r (h.bytes ++ extra) h.bytes.length rx ∧ r.uri.len = h.target.length := by
  have e1 : h.bytes ++ extra = h.line ++ (fieldBytes h.fields ++ ([13, 10] ++ extra)) := by
    simp [Head.bytes, List.append_assoc]
  have P1 := Http.pass_line h ok (fieldBytes h.fields ++ ([13, 10] ++ extra)) 0
  rw [← e1] at P1
  have L1 := Http.loop_recv Http.lineByte n {} (h.bytes ++ extra) rx b bs hb hl P1
  obtain ⟨-, ⟨t, ht, -, -⟩, -, hfl, hfo⟩ := ok
  obtain ⟨r', q1, q2, -, q4, ⟨q5, q6, q7, -⟩, -⟩ := Http.pass_fields h.fields
    { method := ⟨0, h.method.length⟩, uri := ⟨0 + h.method.length + 1, h.target.length⟩,
      ver := ⟨0 + h.method.length + 1 + h.target.length + 1, h.version.length⟩ } h.line extra hfo rfl (by simpa using hfl)
  refine ⟨r', ?_, by rw [q6]⟩
  simp only [Http.head]
  rw [L1]
  simp only [Nat.zero_add]
  rw [Http.loop_scan _ _ _ _ _ _ (by rw [e1]; simp; omega)]
  rw [show (h.bytes ++ extra).drop h.line.length = fieldBytes h.fields ++ ([13, 10] ++ extra) by rw [e1]; simp]
  simp only [Nat.zero_add] at q1
  rw [q1]
  simp only
  congr 1
  simp [Head.bytes]; omega

/-- The announced length of the body, from the fields. -/
def Announces (fs : List Field) (n : Nat) : Prop :=
  (n = 0 ∧ ∀ g ∈ fs, ¬ LengthName g.name) ∨
  ∃ pre f post, fs = pre ++ f :: post ∧ SameName f.name contentLength ∧ Digits f.value ∧ decimal f.value = n ∧ ∀ g ∈ pre ++ post, ¬ LengthName g.name

theorem announced {fs : List Field} {n : Nat} (h : Announces fs n) (hn : n ≤ 16344) (more : Nat → List UInt8) :
    Http.bodyLen 0 (fs.zipIdx.map fun f => (f.1.name, f.1.value ++ 13 :: more f.2)) = some n := by
  rcases h with ⟨rfl, h⟩ | ⟨pre, f, post, rfl, h1, h2, h3, h4⟩
  · have := Http.bodyLen_skip (fs.zipIdx.map fun f => (f.1.name, f.1.value ++ 13 :: more f.2)) [] (by
      intro kv hkv
      obtain ⟨x, hx, rfl⟩ := List.mem_map.mp hkv
      exact Http.clen_false (h x.1 (List.fst_mem_of_mem_zipIdx hx))) 0
    rw [List.append_nil] at this
    rw [this]; rfl
  · obtain ⟨l, r, m, g2, g3, g4⟩ := Http.zip_split pre post f more
    rw [g2, Http.bodyLen_one l r f.name _ ?_ ?_ ((Http.clen_iff _).mpr (.inl h1)) n ?_ (by omega)]
    · intro kv hkv
      obtain ⟨g, hg, e⟩ := g3 kv hkv
      rw [e]; exact Http.clen_false (h4 g (List.mem_append_left _ hg))
    · intro kv hkv
      obtain ⟨g, hg, e⟩ := g4 kv hkv
      rw [e]; exact Http.clen_false (h4 g (List.mem_append_right _ hg))
    · rw [Http.value_digits h2, h3, show min (n : Int) 9223372036854775807 = n by omega, Http.toInt_small (by omega)]

/-- What follows a head that was read, with `first` behind it in the buffer and `n` bytes announced. -/
theorem after_request (h : Head) (ok : h.Ok) (first : List UInt8) (hl : (h.bytes ++ first).length ≤ 4096) (m : Nat) (hm : m ≤ 16344) (hf : first.length ≤ m ∨ m = 0) (ha : Announces h.fields m)
    (b : UInt8) (bs : List UInt8) (hb : h.bytes ++ first = b :: bs) (n : Nat) :
    ∃ keep r, afterHead (Http.head (n + 1) {} [] 0 [.data b bs]) =
        (if m = 0 then .req (asked (h.bytes ++ first) r none) else if first.length < m then .more (.pay r (h.bytes ++ first) m first) else .req (asked (h.bytes ++ first) r (some first))) ∧
      (∀ bd, asked (h.bytes ++ first) r bd = ⟨h.target.length, h.target, Http.methodTyp h.method, keep, bd⟩) ∧
      (keep = true ↔ ∃ f ∈ h.fields, (SameName f.name connection ∨ Abbreviates f.name connection) ∧
        (SameName f.value keepAliveText ∨ Abbreviates f.value keepAliveText)) := by
  obtain ⟨r, e1, e2, e3, -, -⟩ := Http.c31_one_piece_partial h ok first hl b bs hb n []
  obtain ⟨r2, f1, f2⟩ := head_uri_len h ok first hl b bs hb n []
  obtain ⟨r3, g1, -, more, g2⟩ := Http.head_tails h ok first hl b bs hb n []
  obtain ⟨r4, k1, k2⟩ := Http.c67_iff h ok first hl b bs hb n []
  obtain rfl : r = r2 := by rw [e1] at f1; injection f1
  obtain rfl : r = r3 := by rw [e1] at g1; injection g1
  obtain rfl : r = r4 := by rw [e1] at k1; injection k1
  refine ⟨_, r, ?_, fun bd => ?_, k2⟩
  · have hd : (h.bytes ++ first).drop h.bytes.length = first := by simp
    simp only [e1, afterHead, g2, announced ha hm more, hd]
    by_cases h0 : m = 0
    · simp [h0]
    · rw [if_neg (by omega), if_neg h0, if_neg (by rw [(Web.c57_exact_partial _).mpr (by omega)]; simp)]
      rw [if_neg (by omega)]
  · simp only [asked, f2, e2, e3]

/-- The request line alone. -/
theorem line_alone (h : Head) (ok : h.Ok) (hl : h.line.length < 4096) (b : UInt8) (bs : List UInt8) (hb : h.line = b :: bs) (n : Nat) :
    ∃ r, Http.head (n + 1) {} [] 0 [.data b bs] = .wait r h.line h.line.length ∧
      ∀ rx, Http.head (n + 1) {} [] 0 (.data b bs :: rx) = Http.loop Http.hdrByte (n + 1) r h.line h.line.length rx := by
  have P0 := Http.pass_line h ok [] 0
  rw [List.append_nil] at P0
  obtain ⟨r, hr⟩ : ∃ r, Http.pass Http.lineByte {} 0 h.line = .done r h.line.length := ⟨_, P0.trans (congrArg _ (Nat.zero_add _))⟩
  have key : ∀ rx, Http.head (n + 1) {} [] 0 (.data b bs :: rx) = Http.loop Http.hdrByte (n + 1) r h.line h.line.length rx := by
    intro rx
    simp only [Http.head]
    rw [Http.loop_recv Http.lineByte n {} h.line rx b bs hb (by simp only [Http.bufn]; omega) hr]
  refine ⟨r, ?_, key⟩
  rw [key, Http.loop, if_pos (by omega), if_neg (by simp only [Http.bufn]; omega)]

/-- The rest of the body. -/
theorem pay_all (k : Nat) (r : Http.Req) (buf : List UInt8) (m : Nat) (got : List UInt8) (rs : List (UInt8 × List UInt8)) (h1 : got.length < m)
    (h2 : (got ++ (rs.map fun x => x.1 :: x.2).flatten).length = m) :
    feedAll k (.pay r buf m got) rs = .req (asked buf r (some (got ++ (rs.map fun x => x.1 :: x.2).flatten))) := by
  induction rs generalizing got with
  | nil => simp at h2; omega
  | cons x rs ih =>
    have h2' := h2
    simp only [List.map_cons, List.flatten_cons, List.length_append, List.length_cons] at h2
    unfold feedAll
    rw [if_pos (by simp only [room]; omega)]
    simp only [feed]
    by_cases h3 : (got ++ x.1 :: x.2).length < m
    · rw [if_pos h3]
      simp only
      rw [ih (got ++ x.1 :: x.2) h3 (by rw [← h2']; simp)]
      simp
    · rw [if_neg h3]
      simp only [List.length_append, List.length_cons] at h3
      have : rs = [] := by
        cases rs with
        | nil => rfl
        | cons y rs => simp only [List.map_cons, List.flatten_cons, List.length_append, List.length_cons] at h2; omega
      subst this
      simp

/-- The records of a request reach the router as the request that was sent. -/
theorem feed_request {a : Ask} (ok : a.head.Ok) (hm : a.body.length ≤ 16344) (ha : Announces a.head.fields a.body.length) (rs : List (UInt8 × List UInt8))
    (hs : a.Sends (rs.map fun x => x.1 :: x.2)) (n : Nat) :
    ∃ keep, feedAll (n + 1) .line rs = .req ⟨a.head.target.length, a.head.target, Http.methodTyp a.head.method, keep, if a.body = [] then none else some a.body⟩ ∧
      (keep = true ↔ a.keeps) := by
  obtain ⟨first, rest, h1, h2, h3⟩ := hs
  have hfl : first.length ≤ a.body.length := by rw [← h1]; simp
  have hne : ∃ b bs, a.head.bytes ++ first = b :: bs := by
    cases h : a.head.bytes ++ first with
    | nil => simp [Head.bytes] at h
    | cons b bs => exact ⟨b, bs, rfl⟩
  obtain ⟨b, bs, hb⟩ := hne
  obtain ⟨keep, r, e1, e2, e3⟩ := after_request a.head ok first h2 _ hm (.inl hfl) ha b bs hb n
  refine ⟨keep, ?_, e3⟩
  -- after the record that ends the head
  have key : ∀ (ps : Ps) (x : UInt8 × List UInt8) (xs : List (UInt8 × List UInt8)), feed (n + 1) ps x.1 x.2 = afterHead (Http.head (n + 1) {} [] 0 [.data b bs]) → x.2.length < room ps →
      xs.map (fun x => x.1 :: x.2) = rest →
      feedAll (n + 1) ps (x :: xs) = .req ⟨a.head.target.length, a.head.target, Http.methodTyp a.head.method, keep, if a.body = [] then none else some a.body⟩ := by
    intro ps x xs hf hr hxs
    unfold feedAll
    rw [if_pos hr, hf, e1]
    have hxs0 : first.length = a.body.length → xs = [] := by
      intro h
      have h4 := congrArg List.length h1
      simp only [List.length_append, h, ← hxs] at h4
      cases xs with
      | nil => rfl
      | cons y xs => simp only [List.map_cons, List.flatten_cons, List.length_append, List.length_cons] at h4; omega
    have hfb : first.length = a.body.length → first = a.body := by
      intro h
      have h4 := hxs0 h
      subst h4
      rw [← hxs] at h1
      simpa using h1
    by_cases h0 : a.body.length = 0
    · rw [if_pos h0]
      simp only
      rw [if_pos (hxs0 (by omega)), e2, if_pos (List.eq_nil_of_length_eq_zero h0)]
    · have hb0 : a.body ≠ [] := fun h => h0 (by rw [h]; rfl)
      rw [if_neg h0]
      by_cases h4 : first.length < a.body.length
      · rw [if_pos h4]
        simp only
        rw [pay_all (n + 1) r _ _ first xs h4 (by rw [hxs, h1]), e2, hxs, h1, if_neg hb0]
      · rw [if_neg h4]
        simp only
        rw [if_pos (hxs0 (by omega)), e2, if_neg hb0, hfb (by omega)]
  rcases h3 with h3 | h3
  · cases rs with
    | nil => simp at h3
    | cons x xs =>
      simp only [List.map_cons, List.cons.injEq] at h3
      have hx := h3.1.trans hb
      simp only [List.cons.injEq] at hx
      refine key .line x xs (by simp only [feed, hx.1, hx.2]) ?_ h3.2
      have := congrArg List.length h3.1
      simp only [List.length_cons] at this
      simp only [room, Http.bufn]
      omega
  · cases rs with
    | nil => simp at h3
    | cons x xs =>
      cases xs with
      | nil => simp at h3
      | cons y ys =>
        simp only [List.map_cons, List.cons.injEq] at h3
        obtain ⟨h3, h4, h5⟩ := h3
        have hbytes : a.head.bytes ++ first = a.head.line ++ (fieldBytes a.head.fields ++ ([13, 10] ++ first)) := by simp [Head.bytes, List.append_assoc]
        have hlen := congrArg List.length hbytes
        rw [List.length_append (as := a.head.line)] at hlen
        have h3l := congrArg List.length h3
        have h4l := congrArg List.length h4
        simp only [List.length_cons] at h3l h4l
        obtain ⟨r1, w1, w2⟩ := line_alone a.head ok (by omega) x.1 x.2 h3.symm n
        have hone := Http.c32_line_boundary_partial a.head ok first h2 x.1 x.2 h3.symm y.1 y.2 h4.symm n []
        have hjoin : b = x.1 ∧ bs = x.2 ++ y.1 :: y.2 := by
          have : b :: bs = x.1 :: (x.2 ++ y.1 :: y.2) := by rw [← hb, hbytes, ← h3, ← h4]; simp
          simpa using this
        rw [feedAll, if_pos (by simp only [room, Http.bufn]; omega)]
        simp only [feed, w1, afterHead]
        refine key (.hdrs r1 a.head.line a.head.line.length) y ys ?_ (by simp only [room, Http.bufn]; omega) h5
        simp only [feed]
        rw [← w2, hone, hjoin.1, hjoin.2]

theorem sub_method {a m : List UInt8} (h : SameName a m) (hm : m ≠ []) : a ≠ [] := by
  rintro rfl
  cases m with
  | nil => exact hm rfl
  | cons x m => simp [SameName] at h

theorem is_get {m : List UInt8} (h : SameName m [71, 69, 84]) : Http.methodTyp m = .get :=
  (Http.c36_method_iff m (sub_method h (by simp))).1.mpr (.inl h)

theorem is_post {m : List UInt8} (h : SameName m [80, 79, 83, 84]) : Http.methodTyp m = .post :=
  (Http.c36_method_iff m (sub_method h (by simp))).2.mpr (.inl h)

theorem echo_key : Web.str "/echo" = echoPath := by decide +kernel

theorem apis_eq : Web.apis = [⟨echoPath, .get, 0⟩, ⟨echoPath, .post, 1⟩] := by
  simp only [Web.apis, Web.apiReg, echo_key]; rfl

theorem announce_none {fs : List Field} (h : ∀ g ∈ fs, ¬ LengthName g.name) : Announces fs ([] : List UInt8).length := .inl ⟨rfl, h⟩

theorem put_len (text : List UInt8) (l : List (List UInt8)) : (Web.hdrPut text l).flatten.length = l.flatten.length + text.length := by
  induction l with
  | nil => simp [Web.hdrPut]
  | cons b l ih =>
    unfold Web.hdrPut
    split
    · simp only [List.flatten_cons, List.length_append]; omega
    · simp only [List.flatten_cons, List.length_append, ih]; omega

theorem puts_len (texts l : List (List UInt8)) : (texts.foldl Web.hdrp l).flatten.length ≤ l.flatten.length + 1022 * texts.length := by
  induction texts generalizing l with
  | nil => simp
  | cons t ts ih =>
    have h1 := ih (Web.hdrp l t)
    have h2 : (Web.hdrp l t).flatten.length ≤ l.flatten.length + 1022 := by
      simp only [Web.hdrp, put_len, Printf.sn, List.length_take]; omega
    simp only [List.foldl_cons, List.length_cons]
    omega

theorem chain_len (code : Nat) (date : List UInt8) (keep : Bool) (clen : Int) (ext : Option (List UInt8)) :
    (Web.hdrChain code date keep clen ext).flatten.length ≤ 8000 := by
  have h1 := puts_len (Web.hdrTexts code date keep clen ext) []
  have h2 : (Web.hdrTexts code date keep clen ext).length ≤ 7 := by
    cases ext <;> simp [Web.hdrTexts]
  unfold Web.hdrChain
  simp only [List.flatten_nil, List.length_nil] at h1
  omega

/-- The whole response to a request, as the client reads it. -/
theorem ask_resp {e : Env} {a : Ask} (ha : a.Ok home index e) (hd : Web.Plain e.date) (rs : List (UInt8 × List UInt8)) (hs : a.Sends (rs.map fun x => x.1 :: x.2)) (n : Nat) :
    ∃ hdr body keep, resp (n + 1) home index e .line rs = some (hdr, body, keep) ∧ Spec.WebSend.Sized body ∧ (keep = true ↔ a.keeps) ∧
      (∀ next, ∃ fs, RspSpec.read (Spec.WebSend.whole hdr body ++ next) = some (⟨200, fs, a.wanted home index e⟩, next)) ∧
      (Spec.WebSend.whole hdr body).length ≤ 8000 + (a.wanted home index e).length ∧ ∀ f n, body = .file f n → f = a.wanted home index e := by
  obtain ⟨head, want⟩ := a
  obtain ⟨ok, hw⟩ := ha
  have htgt : head.target ≠ [] := by obtain ⟨-, ⟨t, ht, -⟩, -⟩ := ok; rw [ht]; simp
  cases want with
  | file =>
    obtain ⟨w1, w2, w3, w4, w5, w6, w7, w8, w9⟩ := hw
    obtain ⟨keep, q1, q2⟩ := feed_request ok (by simp [Ask.body]) (announce_none w2) rs hs n
    obtain ⟨f, hf⟩ := Web.lastComp_exists (path home index head.target)
    obtain ⟨t, ht, -⟩ := Web.c35_type_partial _ f w7 hf
    have hp := Web.c33_path home index head.target htgt w6
    have hr := Web.c33_served Web.apis head.target w4 e.stack w5 (by
      rw [apis_eq]
      intro x hx hy
      simp only [List.mem_cons, List.not_mem_nil, or_false] at hx
      rcases hx with rfl | rfl
      · exact w3 hy.1.symm
      · exact w3 hy.1.symm)
    refine ⟨Web.hdrChain 200 e.date keep (e.content (path home index head.target)).length (some (Web.typeHdr t)),
      .file (e.content (path home index head.target)) (e.content (path home index head.target)).length, keep, ?_, rfl, q2,
      fun next => ⟨Web.allFields e.date keep (e.content (path home index head.target)).length (some t), ?_⟩, ?_, by rintro f n ⟨⟩; rfl⟩
    · simp only [resp, q1, Ask.body, if_true, answer, Web.serve, is_get w1, hr, hp]
      simp only [path] at ht w8 w9 ⊢
      simp only [ht, w9, Web.fileCode, Web.small_toInt32 w8]
    · have := Web.read_ended (code := 200) (.inl rfl) keep (ctype := some t) (e.content (path home index head.target)) next hd (by dsimp only at w8; omega)
        (by intro c hc; obtain rfl := Option.some.inj hc; exact Web.mime_plain ht)
      simp only [Option.map_some] at this
      refine Eq.trans ?_ this
      simp only [Spec.WebSend.whole]
      split
      · rw [List.append_assoc]
      · rename_i h0
        have : e.content (path home index head.target) = [] := List.eq_nil_of_length_eq_zero (by omega)
        rw [this]; simp
    · have := chain_len 200 e.date keep (e.content (path home index head.target)).length (some (Web.typeHdr t))
      simp only [Spec.WebSend.whole, Ask.wanted, List.length_append]
      split <;> (try simp only [List.length_nil]) <;> omega
  | date =>
    obtain ⟨w1, w2, w3⟩ := hw
    obtain ⟨keep, q1, q2⟩ := feed_request ok (by simp [Ask.body]) (announce_none w2) rs hs n
    refine ⟨Web.hdrChain 200 e.date keep e.date.length none, .api e.date, keep, ?_, trivial, q2,
      fun next => ⟨Web.allFields e.date keep e.date.length none, ?_⟩, ?_, by rintro f n ⟨⟩⟩
    · have hr : Web.route Web.apis (head.target.length : Nat) head.target .get e.stack = .api ⟨echoPath, .get, 0⟩ := by
        rw [w3, apis_eq]; rfl
      simp [resp, q1, Ask.body, answer, Web.serve, is_get w1, hr, Web.echoPayload]
    · have := Web.read_ended (code := 200) (.inl rfl) keep (ctype := none) e.date next hd (by have := hd.len; omega) (by simp)
      refine Eq.trans ?_ this
      simp [Spec.WebSend.whole]
    · have := chain_len 200 e.date keep e.date.length none
      simp only [Spec.WebSend.whole, Ask.wanted, List.length_append]
      omega
  | echo body =>
    obtain ⟨w1, w2, w3, w5, w4⟩ := hw
    obtain ⟨keep, q1, q2⟩ := feed_request ok w5 (.inr w4) rs hs n
    refine ⟨Web.hdrChain 200 e.date keep body.length none, .api body, keep, ?_, trivial, q2,
      fun next => ⟨Web.allFields e.date keep body.length none, ?_⟩, ?_, by rintro f n ⟨⟩⟩
    · have hr : Web.route Web.apis (head.target.length : Nat) head.target .post e.stack = .api ⟨echoPath, .post, 1⟩ := by
        rw [w2, apis_eq]; rfl
      simp [resp, q1, Ask.body, answer, Web.serve, is_post w1, hr, Web.echoPayload, w3]
    · have hlen : body.length < 10 ^ 10 := by
        omega
      have := Web.read_ended (code := 200) (.inl rfl) keep (ctype := none) body next hd hlen (by simp)
      refine Eq.trans ?_ this
      simp [Spec.WebSend.whole]
    · have := chain_len 200 e.date keep body.length none
      simp only [Spec.WebSend.whole, Ask.wanted, List.length_append]
      omega

/-- The responses to a list of requests, as the client reads them. -/
theorem asks_expected (n : Nat) (i : Nat) (asks : List Ask) (Q : List (List (UInt8 × List UInt8))) (hb : AllSend asks Q)
    (hok : ∀ j (h : j < asks.length), asks[j].Ok home index (E (i + j)) ∧ Web.Plain (E (i + j)).date) (hk : ∀ j (h : j + 1 < asks.length), asks[j].keeps) :
    Fine (n + 1) home index E i Q ∧
    ∀ next, readAll asks.length (expected (n + 1) home index E i Q ++ next) = (asks.mapIdx fun j a => (200, a.wanted home index (E (i + j))), next) := by
  induction asks generalizing i Q with
  | nil =>
    cases Q with
    | nil => exact ⟨trivial, fun _ => rfl⟩
    | cons r rs => exact hb.elim
  | cons a as ih =>
    cases Q with
    | nil => exact hb.elim
    | cons r rs =>
      have h0 := hok 0 (by simp)
      simp only [List.getElem_cons_zero, Nat.add_zero] at h0
      obtain ⟨hdr, body, keep, e1, e2, e3, e4, -⟩ := ask_resp h0.1 h0.2 r hb.1 n
      obtain ⟨i1, i2⟩ := ih (i + 1) rs hb.2 (fun j h => by
        have := hok (j + 1) (by simpa using h)
        rwa [show i + (j + 1) = i + 1 + j by omega] at this) (fun j h => hk (j + 1) (by simpa using h))
      refine ⟨⟨⟨hdr, body, keep, e1, e2⟩, i1⟩, fun next => ?_⟩
      rw [expected, e1]
      simp only [List.length_cons, readAll, List.append_assoc]
      obtain ⟨fs, e5⟩ := e4 ((if keep = true then expected (n + 1) home index E (i + 1) rs else []) ++ next)
      rw [e5]
      have hsh : (as.mapIdx fun j a => ((200 : Nat), a.wanted home index (E (i + (j + 1))))) = as.mapIdx fun j a => (200, a.wanted home index (E (i + 1 + j))) := by
        congr 1; funext j a; rw [show i + (j + 1) = i + 1 + j by omega]
      cases as with
      | nil =>
        cases rs with
        | nil => simp [expected, readAll]
        | cons => exact hb.2.elim
      | cons a' as' =>
        have hkk : keep = true := e3.mpr (hk 0 (by simp))
        simp only [hkk, if_true, i2 next, List.mapIdx_cons, Nat.add_zero]
        simp only [List.mapIdx_cons] at hsh
        rw [hsh]

/-- The requests can be answered one after the other. -/
theorem asks_good (n : Nat) (i : Nat) (asks : List Ask) (Q : List (List (UInt8 × List UInt8))) (hb : AllSend asks Q)
    (hok : ∀ j (h : j < asks.length), asks[j].Ok home index (E (i + j)) ∧ Web.Plain (E (i + j)).date)
    (hio : ∀ j, j ≤ asks.length → Ssl.Res.err ∉ (E (i + j)).io)
    (hq : ∀ j (h : j < asks.length), (Q[j]?.getD []).length ≤ reads (E (i + j)).io ∧ Able (E (i + j)) (asks[j].wanted home index (E (i + j))).length) :
    Good (n + 1) home index E i Q := by
  induction asks generalizing i Q with
  | nil =>
    cases Q with
    | nil => exact hio 0 (by simp)
    | cons r rs => exact hb.elim
  | cons a as ih =>
    cases Q with
    | nil => exact hb.elim
    | cons r rs =>
      have h0 := hok 0 (by simp)
      have h1 := hq 0 (by simp)
      simp only [List.getElem_cons_zero, Nat.add_zero, List.getElem?_cons_zero, Option.getD_some] at h0 h1
      obtain ⟨hdr, body, keep, e1, e2, e3, e4, e5, e6⟩ := ask_resp h0.1 h0.2 r hb.1 n
      obtain ⟨q0, q1, q2, q3, q4, q5⟩ := h1
      refine ⟨⟨q0, hio 0 (by simp), hdr, body, keep, e1, e2, q1, q4, by omega, ?_⟩, ?_⟩
      · intro f m hf
        rw [e6 f m hf]
        exact ⟨q2, q3⟩
      · refine ih (i + 1) rs hb.2 ?_ ?_ ?_
        · intro j h
          have := hok (j + 1) (by simpa using h)
          rwa [show i + (j + 1) = i + 1 + j by omega] at this
        · intro j h
          have := hio (j + 1) (by simpa using h)
          rwa [show i + (j + 1) = i + 1 + j by omega] at this
        · intro j h
          have := hq (j + 1) (by simpa using h)
          simp only [List.getElem?_cons_succ, List.getElem_cons_succ] at this
          rwa [show i + (j + 1) = i + 1 + j by omega] at this

theorem need_allWaits (i : Nat) (Q : List (List (UInt8 × List UInt8))) : allWaits E i + need E i Q = allWaits E (i + Q.length) := by
  induction Q generalizing i with
  | nil => rfl
  | cons r rs ih =>
    have := ih (i + 1)
    simp only [allWaits] at this
    simp only [need, List.length_cons]
    rw [show i + (rs.length + 1) = i + 1 + rs.length by omega]
    omega

theorem _root_.Verif.Spec.WebConn.AllSend.length {asks : List Ask} {Q : List (List (UInt8 × List UInt8))} (h : AllSend asks Q) : Q.length = asks.length := by
  induction asks generalizing Q with
  | nil =>
    cases Q with
    | nil => rfl
    | cons r rs => exact h.elim
  | cons a as ih =>
    cases Q with
    | nil => exact h.elim
    | cons r rs => simp only [List.length_cons, ih h.2]

theorem _root_.Verif.Spec.WebConn.AllSend.take {asks : List Ask} {Q : List (List (UInt8 × List UInt8))} (h : AllSend asks Q) (m : Nat) : AllSend (asks.take m) (Q.take m) := by
  induction m generalizing asks Q with
  | zero => trivial
  | succ m ih =>
    cases asks with
    | nil =>
      cases Q with
      | nil => trivial
      | cons r rs => exact h.elim
    | cons a as =>
      cases Q with
      | nil => exact h.elim
      | cons r rs => exact ⟨h.1, ih h.2⟩

/-! ### Buffers -/

/-- The next receive call fits into what is left of the buffer, which is not nothing. -/
def Fits : Ps → Prop
  | .line => True
  | .hdrs _ buf _ => buf.length < 4096
  | .pay _ _ n got => got.length < n ∧ n ≤ 16344

theorem loop_wait (f : Http.Req → Nat → UInt8 → Http.Byte) (n : Nat) (r : Http.Req) (buf : List UInt8) (pos : Nat) (rx : List Rx) {r' : Http.Req} {buf' : List UInt8} {pos' : Nat}
    (h : Http.loop f n r buf pos rx = .wait r' buf' pos') : buf'.length < 4096 := by
  induction n generalizing r buf rx with
  | zero => cases h
  | succ n ih =>
    rw [Http.loop.eq_def] at h
    simp only at h
    split at h
    · split at h
      · cases h
      · rename_i hb
        simp only [Http.bufn] at hb
        split at h
        · cases h; omega
        · cases h; omega
        · cases h
        · split at h
          · cases h
          · cases h
          · split at h
            · cases h
            · exact ih _ _ _ h
    · split at h
      · cases h
      · cases h
      · split at h
        · cases h
        · exact ih _ _ _ h

theorem afterHead_fits {o : Http.Out} (ho : ∀ r buf pos, o = .wait r buf pos → buf.length < 4096) {ps : Ps} (h : afterHead o = .more ps) : Fits ps := by
  cases o with
  | running => cases h
  | wait r buf pos => cases h; exact ho r buf pos rfl
  | err => cases h
  | aborted => cases h
  | done r buf pos rest =>
    simp only [afterHead] at h
    split at h
    · cases h
    · rename_i n hn
      split at h
      · cases h
      · split at h
        · cases h
        · rename_i hacc
          simp only [Bool.not_eq_false] at hacc
          have := (Web.c57_exact_partial n).mp hacc
          split at h
          · cases h
          · split at h
            · rename_i hlt; cases h; exact ⟨hlt, by omega⟩
            · cases h

theorem feed_fits {ps ps' : Ps} {b : UInt8} {bs : List UInt8} (hp : Fits ps) (h : feed k ps b bs = .more ps') : Fits ps' := by
  cases ps with
  | line =>
    refine afterHead_fits ?_ h
    intro r buf pos hw
    simp only [Http.head] at hw
    split at hw
    · exact loop_wait _ _ _ _ _ _ hw
    · exact loop_wait _ _ _ _ _ _ hw
  | hdrs r buf pos => exact afterHead_fits (fun _ _ _ hw => loop_wait _ _ _ _ _ _ hw) h
  | pay r buf n got =>
    simp only [feed] at h
    split at h
    · cases h; exact ⟨by assumption, hp.2⟩
    · cases h

/-- At any time. -/
def Room (c : C) : Prop := ∀ ps, c.ph = .req ps → Fits ps

theorem proc_fits (c : C) (ps : Ps) (h : Fits ps) : Room (proc k home index E c ps) := by
  fun_induction proc k home index E c ps with
  | case1 => intro ps h'; cases h'; exact h
  | case2 => intro ps h'; cases h'; exact h
  | case3 => intro ps h'; cases h'; exact h
  | case5 => intro ps h'; cases h'; exact h
  | case7 c ps io _ r rest hs hr ps' hf ih => exact ih (feed_fits h hf)
  | case13 c ps io hi r rest hs hr q hf hdr body ha w hw hk ih => exact ih trivial
  | _ => intro ps h'; cases h'

theorem after_fits (c : C) (w : WebSend.W) (keep : Bool) : Room (after k home index E c w keep) := by
  unfold after
  split
  · intro ps h'; cases h'
  · split
    · exact proc_fits _ _ trivial
    · intro ps h'; cases h'
  · intro ps h'; cases h'
  · intro ps h'; cases h'

theorem step_fits {c c' : C} {e : Ev} (h : Room c) (hs : step k home index E c e = some c') : Room c' := by
  have key : ∀ (w : WebSend.W) (keep : Bool) (e' : WebSend.Ev), (WebSend.step w e').map (fun w' => after k home index E c w' keep) = some c' → Room c' := by
    intro w keep e' hm
    obtain ⟨w', -, rfl⟩ := Option.map_eq_some_iff.mp hm
    exact after_fits _ _ _
  cases e with
  | arrive b bs => cases hs; exact h
  | r =>
    simp only [step] at hs
    split at hs
    · cases hs; exact h
    · exact key _ _ _ hs
    · rename_i ps hp
      split at hs <;> cases hs
      · exact h
      · exact proc_fits _ _ (h ps hp)
  | w =>
    simp only [step] at hs
    split at hs
    · cases hs; exact h
    · exact key _ _ _ hs
    · rename_i ps hp
      split at hs <;> cases hs
      · exact h
      · exact proc_fits _ _ (h ps hp)
  | timeout =>
    simp only [step] at hs
    split at hs
    · cases hs; exact h
    · exact key _ _ _ hs
    · cases hs; intro ps h'; cases h'

theorem run_fits (es : List Ev) {c c' : C} (h : Room c) (hs : run k home index E c es = some c') : Room c' := by
  induction es generalizing c with
  | nil => cases hs; exact h
  | cons e es ih =>
    simp only [run, Option.bind_eq_some_iff] at hs
    obtain ⟨c1, h1, h2⟩ := hs
    exact ih (step_fits h h1) h2

end Verif.WebConn
