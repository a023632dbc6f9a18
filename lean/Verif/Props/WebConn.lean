import Verif.Proofs.WebAsk
/-
Property C106: a connection of the web server over TLS with many requests.
-/
namespace Verif.WebConn
open Verif Verif.Spec.WebConn Verif.HttpSpec

/-- The date is what `systime_gmt` makes of a time in the years 0 to 9999. -/
def Dated (e : Env) : Prop := ∃ t : SysTime.Tm, SysTime.Ranges t ∧ (0 ≤ t.year + 1900 ∧ t.year + 1900 < 10000) ∧ SysTime.gmt t = some e.date

theorem Dated.plain {e : Env} (h : Dated e) : Web.Plain e.date := by
  obtain ⟨t, h1, h2, h3⟩ := h
  exact Web.date_plain h1 h2 h3

theorem records_eq (es : List Ev) : recsOf es = records es := by
  induction es with
  | nil => rfl
  | cons e es ih =>
    cases e <;> simp only [recsOf, List.flatMap_cons, recOf, records, List.nil_append, List.cons_append, ← ih]

/-! ### A case -/

/-- A check for `Possible` (for the cases). -/
def possible (k : Nat) (home index : List UInt8) (E : Nat → Env) (c : C) : List Ev → Bool
  | [] => true
  | e :: es =>
    (match e, c.ph with
      | .r, .rsp w _ => w.t.opt.r
      | .r, _ => c.t.opt.r
      | .w, .rsp w _ => w.t.opt.w
      | .w, _ => c.t.opt.w
      | _, _ => true) &&
    match step k home index E c e with
    | some c' => possible k home index E c' es
    | none => true

theorem possible_sound {k : Nat} {home index : List UInt8} {E : Nat → Env} (es : List Ev) (c : C) (h : possible k home index E c es = true) :
    Possible k home index E c es := by
  induction es generalizing c with
  | nil => trivial
  | cons e es ih =>
    simp only [possible, Bool.and_eq_true] at h
    refine ⟨?_, fun c' hc => ih c' ?_⟩
    · cases e <;> simp only [Reportable]
      · cases hp : c.ph <;> simp only [hp] at h ⊢ <;> exact h.1
      · cases hp : c.ph <;> simp only [hp] at h ⊢ <;> exact h.1
    · have := h.2
      rw [hc] at this
      exact this

/-- `GET /echo HTTP/1.1` with `Connection: keep-alive`. -/
def exDate : Ask := ⟨⟨[71, 69, 84], [47, 101, 99, 104, 111], [72, 84, 84, 80, 47, 49, 46, 49], [⟨connection, 1, keepAliveText⟩]⟩, .date⟩

/-- `GET /a.txt HTTP/1.1` with `Connection: keep-alive`. -/
def exFile : Ask := ⟨⟨[71, 69, 84], [47, 97, 46, 116, 120, 116], [72, 84, 84, 80, 47, 49, 46, 49], [⟨connection, 1, keepAliveText⟩]⟩, .file⟩

/-- `POST /echo HTTP/1.1` with `Content-Length: 2` and the body `hi`. -/
def exEcho : Ask := ⟨⟨[80, 79, 83, 84], [47, 101, 99, 104, 111], [72, 84, 84, 80, 47, 49, 46, 49], [⟨contentLength, 0, [50]⟩]⟩, .echo [104, 105]⟩

/-- `systime_gmt` at a certain time. -/
def exNow : List UInt8 := Web.str "Sun, 15 Nov 2026 04:05:06 GMT"

/-- An environment with waits in both directions: TLS wants to write when a request is read, and to read when a response is sent. The home directory is `/w`; `/w/a.txt` has
three bytes. -/
def exEnv (j : Nat) : Env where
  io := match j with | 0 => [.wantW, .ok] | 1 => [.wantW, .ok, .ok] | _ => [.wantW, .ok, .ok, .wantR, .ok]
  date := exNow
  stat := fun p => if p = [47, 119, 47, 97, 46, 116, 120, 116] then .readable 3 true else .missing
  content := fun p => if p = [47, 119, 47, 97, 46, 116, 120, 116] then [120, 121, 122] else []
  stack := []
  mem := true
  rd := List.replicate 40 4096
  dst := .wait true :: .sent 20000 :: .wait false :: List.replicate 9000 (.sent 20000)
  peek := []

/-- A record of given bytes. -/
def exRec (l : List UInt8) : UInt8 × List UInt8 := (l.headD 0, l.tail)

/-- The records of the three requests: the first in one record, the second in two, and the third in three, with its body in two of them. -/
def exCuts : List (List (UInt8 × List UInt8)) :=
  [[exRec exDate.head.bytes], [exRec exFile.head.line, exRec (fieldBytes exFile.head.fields ++ [13, 10])], [exRec exEcho.head.bytes, (104, []), (105, [])]]

theorem exSends : AllSend [exDate, exFile, exEcho] exCuts :=
  ⟨⟨[], [], rfl, by decide, .inl (by decide +kernel)⟩, ⟨[], [], rfl, by decide, .inr (by decide +kernel)⟩, ⟨[], [[104], [105]], rfl, by decide, .inl (by decide +kernel)⟩, trivial⟩

/-- Three requests on one connection, with nine waits, in both directions. -/
theorem exPossible : Possible 1 [47, 119] [105] exEnv (start 1 [47, 119] [105] exEnv ⟨⟨true, false⟩, none, none, ⟨false, false⟩, none, none⟩ exCuts.flatten)
    [.w, .r, .w, .w, .r, .w, .w, .r, .r, .w] := possible_sound _ _ (by decide +kernel)

theorem text_all {l : List UInt8} (h : (l.all fun b => decide (32 ≤ b.toNat ∧ b.toNat ≤ 127)) = true) : Text l := by
  intro b hb
  simpa using List.all_eq_true.mp h b hb

theorem exDate_ok (e : Env) : exDate.Ok [47, 119] [105] e := by
  refine ⟨⟨⟨by decide, by decide, text_all (by decide), by decide⟩, ⟨[101, 99, 104, 111], rfl, text_all (by decide), by decide⟩, ⟨by decide, text_all (by decide)⟩, by decide, ?_⟩, rfl, ?_, rfl⟩
  · intro f hf
    obtain rfl := List.mem_singleton.mp hf
    exact ⟨by decide, text_all (by decide), by decide, by decide, text_all (by decide), by decide⟩
  · intro f hf
    obtain rfl := List.mem_singleton.mp hf
    show ¬ Http.Clen connection
    rw [← Http.clen_iff]
    decide +kernel

theorem exFile_ok : exFile.Ok [47, 119] [105] (exEnv 1) := by
  refine ⟨⟨⟨by decide, by decide, text_all (by decide), by decide⟩, ⟨[97, 46, 116, 120, 116], rfl, text_all (by decide), by decide⟩, ⟨by decide, text_all (by decide)⟩, by decide, ?_⟩, rfl, ?_, by decide, by decide, ?_, by decide, by decide, by decide +kernel, by decide +kernel⟩
  · intro f hf
    obtain rfl := List.mem_singleton.mp hf
    exact ⟨by decide, text_all (by decide), by decide, by decide, text_all (by decide), by decide⟩
  · intro f hf
    obtain rfl := List.mem_singleton.mp hf
    show ¬ Http.Clen connection
    rw [← Http.clen_iff]
    decide +kernel
  · rw [← Web.dds_iff]
    decide +kernel

theorem exEcho_ok (e : Env) : exEcho.Ok [47, 119] [105] e := by
  refine ⟨⟨⟨by decide, by decide, text_all (by decide), by decide⟩, ⟨[101, 99, 104, 111], rfl, text_all (by decide), by decide⟩, ⟨by decide, text_all (by decide)⟩, by decide, ?_⟩, rfl, rfl, by decide, by decide, [], _, [], rfl, rfl, ⟨by decide, by decide⟩, rfl, by simp⟩
  intro f hf
  obtain rfl := List.mem_singleton.mp hf
  exact ⟨by decide, text_all (by decide), by decide, by decide, text_all (by decide), by decide⟩

theorem exDated (j : Nat) : Dated (exEnv j) :=
  ⟨⟨6, 5, 4, 15, 10, 126, 0⟩, by constructor <;> decide, by decide, by show _ = some exNow; decide +kernel⟩

theorem exAble (j n : Nat) (hn : n ≤ 40) : Able (exEnv j) n := by
  refine ⟨rfl, ?_, by simp only [exEnv, List.length_replicate]; exact hn, ?_, ?_⟩
  · intro x hx; rw [List.eq_of_mem_replicate hx]; omega
  · intro x hx
    simp only [exEnv, List.mem_cons] at hx
    rcases hx with rfl | rfl | rfl | hx
    · exact .inl ⟨_, rfl⟩
    · exact .inr ⟨_, rfl, by omega⟩
    · exact .inl ⟨_, rfl⟩
    · exact .inr ⟨_, List.eq_of_mem_replicate hx, by omega⟩
  · have : ∀ m, Spec.WebSend.sents (List.replicate m (.sent 20000)) = m := by
      intro m
      induction m with
      | zero => rfl
      | succ m ih => rw [List.replicate_succ, Spec.WebSend.sents, ih]
    simp only [exEnv, Spec.WebSend.sents, this]
    omega

/-- C106, callbacks. On a connection of the web server over TLS no callback of another phase and no NULL is ever called, whatever arrives on it and however often reading and
writing have to wait for either direction; and at any time something is registered that continues what the connection is doing: reading a request - the first one or a later one
of a kept connection - or sending a response. -/
theorem c106_waits (k : Nat) (home index : List UInt8) (E : Nat → Env) (t0 : Ssl.S) (sock : List (UInt8 × List UInt8)) (es : List Ev)
    (hp : Possible k home index E (start k home index E t0 sock) es) :
    ∃ r, run k home index E (start k home index E t0 sock) es = some r ∧ Continues r := by
  obtain ⟨r, h1, h2⟩ := run_reg es (start_reg t0 sock) hp
  exact ⟨r, h1, h2.continues⟩

/-- Case: three requests on one connection; a beginning of their history, after which the first response waits for reading, and all of it. -/
example : Possible 1 [47, 119] [105] exEnv (start 1 [47, 119] [105] exEnv ⟨⟨true, false⟩, none, none, ⟨false, false⟩, none, none⟩ exCuts.flatten) [.w, .r, .w, .w, .r, .w, .w, .r, .r, .w] ∧
    (run 1 [47, 119] [105] exEnv (start 1 [47, 119] [105] exEnv ⟨⟨true, false⟩, none, none, ⟨false, false⟩, none, none⟩ exCuts.flatten) [.w]).map (fun r => match r.ph with | .rsp w _ => (r.i, w.t.opt.r, w.t.rcb) | _ => (9, false, none)) =
      some (0, true, some .wr) := ⟨exPossible, by decide +kernel⟩

/-- C106, answers. A client sends requests, each with `Connection: keep-alive` except perhaps the last, for files that exist, for the date or for an echo, each in records of its own
which do not cut its head except behind the request line. Whatever the order of events, and however often reading and writing wait or whether they fail: what was sent to the
client is a beginning of the responses with code 200 and the wanted contents, one for each request, in the order of the requests; whenever the connection waits for a request with
nothing unread, the responses to all requests that have arrived completely have been sent; when the connection ended in order, all; and the parser and the router never fail.
Missing from the full statement: heads that are cut elsewhere (C32) and several requests in one record (C56), for which it is false. -/
theorem c106_answers_partial (n : Nat) (home index : List UInt8) (E : Nat → Env) (t0 : Ssl.S) (sock : List (UInt8 × List UInt8)) (es : List Ev) (r : C) (asks : List Ask)
    (cuts : List (List (UInt8 × List UInt8)))
    (hp : Possible (n + 1) home index E (start (n + 1) home index E t0 sock) es)
    (hr : run (n + 1) home index E (start (n + 1) home index E t0 sock) es = some r)
    (hb : AllSend asks cuts) (ha : sock ++ records es <+: cuts.flatten)
    (hok : ∀ j (h : j < asks.length), asks[j].Ok home index (E j) ∧ Dated (E j)) (hk : ∀ j (h : j + 1 < asks.length), asks[j].keeps) :
    r.ph ≠ .gone .crash ∧ r.ph ≠ .gone .spin ∧
    ∃ full : Nat → List UInt8, (∀ m next, readAll (asks.take m).length (full m ++ next) = ((asks.take m).mapIdx fun j a => (200, a.wanted home index (E j)), next)) ∧
      sent r <+: full asks.length ∧ (r.ph = .gone .done → sent r = full asks.length) ∧
      ∀ m, (cuts.take m).flatten <+: sock ++ records es → (∃ ps, r.ph = .req ps) → r.sock = [] → full m <+: sent r := by
  obtain ⟨fut, hfut⟩ := ha
  have hE : ∀ m, Fine (n + 1) home index E 0 (cuts.take m) ∧ ∀ next, readAll (asks.take m).length (expected (n + 1) home index E 0 (cuts.take m) ++ next) =
      ((asks.take m).mapIdx fun j a => (200, a.wanted home index (E j)), next) := by
    intro m
    have := asks_expected (home := home) (index := index) (E := E) n 0 (asks.take m) (cuts.take m) (hb.take m)
      (fun j h => by
        have h' : j < asks.length := by simp only [List.length_take] at h; omega
        rw [Nat.zero_add, List.getElem_take]; exact ⟨(hok j h').1, (hok j h').2.plain⟩)
      (fun j h => by
        have h' : j + 1 < asks.length := by simp only [List.length_take] at h; omega
        rw [List.getElem_take]; exact hk j h')
    simpa only [Nat.zero_add] using this
  have hall : cuts.take asks.length = cuts := List.take_of_length_le (by rw [hb.length])
  have hF := (hE asks.length).1
  rw [hall] at hF
  have hI := run_inv es (fut := fut) (start_inv t0 sock (recsOf es ++ fut) cuts (by rw [records_eq, ← List.append_assoc]; exact hfut) hF) hF hp hr
  unfold Inv at hI
  cases hph : r.ph with
  | req ps =>
    rw [hph] at hI
    obtain ⟨done, todo, h1, h2, h3, h4, h5⟩ := hI
    refine ⟨by simp, by simp, _, fun m => (hE m).2, ?_, by simp, ?_⟩
    · simp only [sent, hph]
      rw [hall, h4, h1]
      exact expected_mono _ _ _
    · intro m hm _ hs
      simp only [sent, hph]
      rw [h4]
      have hle : m ≤ done.length ∨ todo = [] := by
        cases todo with
        | nil => exact .inr rfl
        | cons full1 todo =>
          refine .inl (Nat.le_of_not_lt fun hlt => ?_)
          obtain ⟨q, g1, g2⟩ := h5
          rw [h1] at hF
          obtain ⟨⟨hd, bd, kp, g3, -⟩, -⟩ := hF.tail
          rw [Nat.zero_add, ← h3] at g3
          obtain ⟨x, q', rfl, -⟩ := resp_cons (g1.trans g3)
          have l1 := hm.length_le
          have l2 := congrArg List.length hfut
          have l3 : (done ++ [full1]).flatten.length ≤ (cuts.take m).flatten.length := by
            rw [h1, show done ++ full1 :: todo = (done ++ [full1]) ++ todo by simp, List.take_append,
              List.take_of_length_le (l := done ++ [full1]) (by simp; omega)]
            simp
          rw [hs, List.nil_append] at g2
          rw [g2, h1] at l2
          simp only [List.flatten_append, List.flatten_cons, List.flatten_nil, List.length_append, List.length_cons, List.length_nil] at l1 l2 l3
          omega
      rcases hle with hle | hle
      · rw [h1, List.take_append_of_le_length hle]
        conv => rhs; rw [← List.take_append_drop m done]
        exact expected_mono _ _ _
      · rw [h1, hle, List.append_nil]
        conv => rhs; rw [← List.take_append_drop m done]
        exact expected_mono _ _ _
  | rsp w keep =>
    rw [hph] at hI
    obtain ⟨done, x, rest, hdr, body, h1, h0, h2, h3, h4, h5, h6, h7, h8⟩ := hI
    refine ⟨by simp, by simp, _, fun m => (hE m).2, ?_, by simp, by simp⟩
    simp only [sent, hph]
    rw [hall, h4]
    exact (ended h1 h2 (h3 ▸ h5) h6 h7).1
  | gone y =>
    rw [hph] at hI
    obtain ⟨h1, h2, h3, h4⟩ := hI
    refine ⟨by simp [h3], by simp [h4], _, fun m => (hE m).2, ?_, ?_, by simp⟩
    · simp only [sent, hph]; rw [hall]; exact h1
    · intro h
      cases h
      simp only [sent, hph]
      rw [hall]
      exact h2 rfl

/-- Case: the client sends the requests one after the other, each when it has got the former response; after the first half of the second. -/
example :
    let es : List Ev := [.arrive (exRec exDate.head.bytes).1 (exRec exDate.head.bytes).2, .w, .r, .w, .arrive (exRec exFile.head.line).1 (exRec exFile.head.line).2, .w]
    possible 1 [47, 119] [105] exEnv (start 1 [47, 119] [105] exEnv ⟨⟨true, false⟩, none, none, ⟨false, false⟩, none, none⟩ []) es = true ∧
    (records es).isPrefixOf exCuts.flatten = true ∧
    (run 1 [47, 119] [105] exEnv (start 1 [47, 119] [105] exEnv ⟨⟨true, false⟩, none, none, ⟨false, false⟩, none, none⟩ []) es).map (fun r => (readAll 2 (sent r), r.sock)) =
      some (([(200, exNow)], []), []) := by
  decide +kernel

/-- C106, delivery. If the requests have arrived, reading and writing never fail - they may have to wait, in either direction, any number of times -, memory is available, and the
files can be read, then after as many events as there were waits, whichever of the events that can be reported they are (the timer apart), all requests have been answered:
the client has got exactly one response with code 200 and the wanted content for each of them, in the order of the requests. -/
theorem c106_delivers_partial (n : Nat) (home index : List UInt8) (E : Nat → Env) (t0 : Ssl.S) (es : List Ev) (asks : List Ask)
    (cuts : List (List (UInt8 × List UInt8)))
    (hp : Possible (n + 1) home index E (start (n + 1) home index E t0 cuts.flatten) es)
    (hb : AllSend asks cuts) (he : ∀ e ∈ es, e = .r ∨ e = .w) (hl : allWaits E asks.length ≤ es.length)
    (hok : ∀ j (h : j < asks.length), asks[j].Ok home index (E j) ∧ Dated (E j)) (hk : ∀ j (h : j + 1 < asks.length), asks[j].keeps)
    (hio : ∀ j, j ≤ asks.length → Ssl.Res.err ∉ (E j).io)
    (hq : ∀ j (h : j < asks.length), (cuts[j]?.getD []).length ≤ reads (E j).io ∧ Able (E j) (asks[j].wanted home index (E j)).length) :
    ∃ r, run (n + 1) home index E (start (n + 1) home index E t0 cuts.flatten) es = some r ∧
      readAll asks.length (sent r) = (asks.mapIdx fun j a => (200, a.wanted home index (E j)), []) := by
  obtain ⟨r, h1, -⟩ := run_reg es (start_reg (k := n + 1) (home := home) (index := index) (E := E) t0 cuts.flatten) hp
  refine ⟨r, h1, ?_⟩
  have hrec : recsOf es = [] := by
    simp only [recsOf, List.flatMap_eq_nil_iff]
    intro e h
    rcases he e h with rfl | rfl <;> rfl
  have ht : Ev.timeout ∉ es := fun h => by rcases he _ h with h | h <;> cases h
  have hG := asks_good (home := home) (index := index) (E := E) n 0 asks cuts hb
    (fun j h => by rw [Nat.zero_add]; exact ⟨(hok j h).1, (hok j h).2.plain⟩) (by simpa using hio) (by simpa using hq)
  have hn := need_allWaits (E := E) 0 cuts
  simp only [allWaits, Nat.zero_add, hb.length] at hn
  have hD : Done r := by
    refine run_live es (start_reg t0 _) hp hrec ht ?_ h1
    rcases start_live (k := n + 1) (home := home) (index := index) (E := E) t0 _ cuts rfl hG with h | h
    · exact .inl h
    · exact .inr (h.mono (by omega))
  obtain ⟨-, -, full, g1, g2, g3, g4⟩ := c106_answers_partial n home index E t0 _ es r asks cuts hp h1 hb
    (by rw [← records_eq, hrec, List.append_nil]; exact List.prefix_refl _) hok hk
  have : sent r = full asks.length := by
    rcases hD with h | ⟨h, h2, -⟩
    · exact g3 h
    · refine g2.eq_of_length_le (g4 asks.length ?_ ⟨_, h⟩ h2).length_le
      rw [← records_eq, hrec, List.append_nil, List.take_of_length_le (by rw [hb.length])]
      exact List.prefix_refl _
  have g := g1 asks.length []
  rwa [List.append_nil, ← this, List.take_length] at g

/-- Case: the date, a file and an echo on one connection, in six records, with waits in every request and response. -/
example : ∃ r, run 1 [47, 119] [105] exEnv (start 1 [47, 119] [105] exEnv ⟨⟨true, false⟩, none, none, ⟨false, false⟩, none, none⟩ exCuts.flatten)
      [.w, .r, .w, .w, .r, .w, .w, .r, .r, .w] = some r ∧
    readAll 3 (sent r) = ([(200, exNow), (200, [120, 121, 122]), (200, [104, 105])], []) := by
  refine c106_delivers_partial 0 [47, 119] [105] exEnv _ _ [exDate, exFile, exEcho] exCuts exPossible exSends (by simp) ?_ ?_ ?_ ?_ ?_
  · decide +kernel
  · intro j h
    match j, h with
    | 0, _ => exact ⟨exDate_ok _, exDated _⟩
    | 1, _ => exact ⟨exFile_ok, exDated _⟩
    | 2, _ => exact ⟨exEcho_ok _, exDated _⟩
  · intro j h
    match j, h with
    | 0, _ => exact ⟨_, List.mem_singleton.mpr rfl, .inl rfl, .inl rfl⟩
    | 1, _ => exact ⟨_, List.mem_singleton.mpr rfl, .inl rfl, .inl rfl⟩
  · intro j _
    match j with
    | 0 => decide
    | 1 => decide
    | j + 2 => show Ssl.Res.err ∉ [Ssl.Res.wantW, .ok, .ok, .wantR, .ok]; decide
  · intro j h
    refine ⟨?_, exAble _ _ ?_⟩
    · show (exCuts[j]?.getD []).length ≤ reads (exEnv j).io
      match j, h with
      | 0, _ => decide +kernel
      | 1, _ => decide +kernel
      | 2, _ => decide +kernel
    match j, h with
    | 0, _ => show (exDate.wanted [47, 119] [105] (exEnv 0)).length ≤ 40; decide +kernel
    | 1, _ => show (exFile.wanted [47, 119] [105] (exEnv 1)).length ≤ 40; decide +kernel
    | 2, _ => show (exEcho.wanted [47, 119] [105] (exEnv 2)).length ≤ 40; decide

/-- C106, buffers. Whatever arrives, a receive call never gets more room than is left: 4096 bytes for the head and what comes with it, less what was received; the announced length of the
body, less what was received of it; and it never gets no room. -/
theorem c106_buffer (k : Nat) (home index : List UInt8) (E : Nat → Env) (t0 : Ssl.S) (sock : List (UInt8 × List UInt8)) (es : List Ev) (r : C)
    (hr : run k home index E (start k home index E t0 sock) es = some r) (ps : Ps) (hp : r.ph = .req ps) :
    match ps with
    | .line => room ps = 4096
    | .hdrs _ buf _ => buf.length + room ps = 4096 ∧ 0 < room ps
    | .pay _ _ n got => got.length + room ps = n ∧ 0 < room ps ∧ n ≤ 16344 := by
  have h := run_fits es (proc_fits (k := k) (home := home) (index := index) (E := E) _ .line trivial) hr ps hp
  cases ps with
  | line => rfl
  | hdrs q buf pos => simp only [Fits] at h; simp only [room, Http.bufn]; omega
  | pay q buf n got => simp only [Fits] at h; simp only [room]; omega

/-- Case: the head of the echo and the first of the two bytes of its body have arrived; one byte is missing. -/
example :
    let es : List Ev := [.arrive (exRec exEcho.head.bytes).1 (exRec exEcho.head.bytes).2, .w, .arrive 104 [], .r, .r]
    (run 1 [47, 119] [105] (fun _ => exEnv 2) (start 1 [47, 119] [105] (fun _ => exEnv 2) ⟨⟨true, false⟩, none, none, ⟨false, false⟩, none, none⟩ []) es).map
      (fun r => match r.ph with | .req (.pay _ _ n got) => (n, got) | _ => (0, [])) = some (2, [104]) := by
  decide +kernel

/-- C106 is false for heads that are cut elsewhere than behind the request line: the connection is closed, or the parser does not come back from its loop, however often it goes
round (`k`); nothing is answered, whatever follows. -/
theorem c106_cut_counterexample (k : Nat) (home index : List UInt8) (E : Nat → Env) (t0 : Ssl.S) (rest : List (UInt8 × List UInt8)) (io : List Ssl.Res) (hio : (E 0).io = .ok :: io)
    (h : Head) (ok : h.Ok) (hl : h.bytes.length ≤ 4096) (b : UInt8) (bs q : List UInt8) (hb : (b :: bs) ++ q = h.bytes) (hq : q ≠ []) (hc : b :: bs ≠ h.line) :
    let c := start k home index E t0 ((b, bs) :: rest)
    (c.ph = .gone .closed ∨ c.ph = .gone .spin) ∧ sent c = [] := by
  have hp := Http.c32_cut_counterexample h ok hl b bs q hb hq hc k []
  have hlen : bs.length < 4096 := by
    have := congrArg List.length hb
    simp only [List.length_append, List.length_cons] at this
    omega
  have hf : feed k .line b bs = .stop ∨ feed k .line b bs = .spin := by
    simp only [feed]
    cases ho : Http.head k {} [] 0 [.data b bs] with
    | running => exact .inr rfl
    | err => exact .inl rfl
    | aborted => rw [ho] at hp; cases hp
    | wait => rw [ho] at hp; cases hp
    | done => rw [ho] at hp; cases hp
  have hr : room .line = 4096 := rfl
  simp only [start]
  rw [proc.eq_def]
  simp only [begin, hio, hr]
  rw [dif_neg (by decide), show (4096 - 1 : Nat) = 4095 from rfl, List.take_of_length_le (by omega)]
  rcases hf with hf | hf
  · simp only [hf]; exact ⟨.inl trivial, rfl⟩
  · simp only [hf]; exact ⟨.inr trivial, rfl⟩

/-- Case: `GET /echo` and so on, without its last byte. -/
example : exDate.head.Ok ∧ exDate.head.bytes.dropLast ++ [10] = exDate.head.bytes ∧ exDate.head.bytes.dropLast ≠ exDate.head.line :=
  ⟨(exDate_ok (exEnv 0)).1, by decide, by decide⟩

/-- C106 is false for what follows a body in the same record, another request for example: when more bytes than announced arrive with the end of the head, the connection is closed, and the
first request is not answered either. -/
theorem c106_behind_body_counterexample (n : Nat) (home index : List UInt8) (E : Nat → Env) (t0 : Ssl.S) (rest : List (UInt8 × List UInt8)) (io : List Ssl.Res)
    (hio : (E 0).io = .ok :: io) (h : Head) (ok : h.Ok) (pre post : List Field) (f : Field) (hf : h.fields = pre ++ f :: post) (hn : SameName f.name contentLength)
    (hd : Digits f.value) (hg : ∀ g ∈ pre ++ post, ¬ LengthName g.name) (h0 : 0 < decimal f.value) (behind : List UInt8) (hm : decimal f.value < behind.length)
    (hl : (h.bytes ++ behind).length ≤ 4096) (b : UInt8) (bs : List UInt8) (hb : h.bytes ++ behind = b :: bs) :
    let c := start (n + 1) home index E t0 ((b, bs) :: rest)
    c.ph = .gone .closed ∧ sent c = [] := by
  obtain ⟨r, g1, -, more, g2⟩ := Http.head_tails h ok behind hl b bs hb n []
  have hlen := congrArg List.length hb
  simp only [List.length_append, List.length_cons] at hlen hl
  have hfd : feed (n + 1) .line b bs = .stop := by
    have hdr : (h.bytes ++ behind).drop h.bytes.length = behind := by simp
    simp only [feed, g1, afterHead, g2, announced (.inr ⟨pre, f, post, hf, hn, hd, rfl, hg⟩) (by omega) more, hdr]
    rw [if_neg (by omega), if_neg (by rw [(Web.c57_exact_partial _).mpr (by omega)]; simp), if_pos hm]
  have hr : room .line = 4096 := rfl
  simp only [start]
  rw [proc.eq_def]
  simp only [begin, hio, hr]
  rw [dif_neg (by decide), show (4096 - 1 : Nat) = 4095 from rfl, List.take_of_length_le (by omega)]
  simp only [hfd]
  exact ⟨trivial, rfl⟩

/-- Case: the echo of `hi`, and `GET /echo` behind it in the same record. -/
example (t0 : Ssl.S) (b : UInt8) (bs : List UInt8) (hb : exEcho.head.bytes ++ ([104, 105] ++ exDate.head.bytes) = b :: bs) :
    let c := start 1 [47, 119] [105] (fun _ => { exEnv 0 with io := [.ok] }) t0 [(b, bs)]
    c.ph = .gone .closed ∧ sent c = [] :=
  c106_behind_body_counterexample 0 _ _ _ t0 [] [] rfl exEcho.head (exEcho_ok (exEnv 0)).1 [] [] _ rfl rfl ⟨by decide, by decide⟩ (by simp) (by decide) _ (by decide) (by decide) b bs hb

end Verif.WebConn
