import Verif.Proofs.WebPlain
import Verif.Props.WebConn
/-
Property C114: a connection of the web server without TLS with many requests.
-/
namespace Verif.WebPlain
open Verif Verif.Spec.WebPlain Verif.HttpSpec
open Verif.WebConn (Env Ps room answer left resp resp_cons Dated)
open Verif.Spec.WebConn (Ask readAll Able)
open Verif.Spec.WebSend (whole Sized)

/-! ### From requests to responses -/

theorem ask_announces {home index : List UInt8} {e : Env} {a : Ask} (ha : a.Ok home index e) : a.body.length ≤ 16344 ∧ WebConn.Announces a.head.fields a.body.length := by
  obtain ⟨head, want⟩ := a
  obtain ⟨ok, hw⟩ := ha
  cases want with
  | file => exact ⟨by simp [Ask.body], WebConn.announce_none hw.2.1⟩
  | date => exact ⟨by simp [Ask.body], WebConn.announce_none hw.2.1⟩
  | echo body => exact ⟨hw.2.2.2.1, .inr hw.2.2.2.2⟩

/-- The response does not depend on how the request was received. -/
theorem ask_same {home index : List UInt8} {e : Env} {a : Ask} (ha : a.Ok home index e) (rs rs' : List (UInt8 × List UInt8)) (hs : a.Sends (rs.map fun x => x.1 :: x.2))
    (hs' : a.Sends (rs'.map fun x => x.1 :: x.2)) (n : Nat) : resp (n + 1) home index e .line rs = resp (n + 1) home index e .line rs' := by
  obtain ⟨h1, h2⟩ := ask_announces ha
  obtain ⟨k1, e1, f1⟩ := WebConn.feed_request ha.1 h1 h2 rs hs n
  obtain ⟨k2, e2, f2⟩ := WebConn.feed_request ha.1 h1 h2 rs' hs' n
  have : k1 = k2 := by
    rw [Bool.eq_iff_iff, f1, f2]
  simp only [resp, e1, e2, this]

theorem bytes_map (rs : List (UInt8 × List UInt8)) : (rs.map fun x => x.1 :: x.2).flatten = bytes rs := by simp [bytes, List.flatMap]

/-- Pieces of a request whose first holds the head. -/
theorem sends_of {a : Ask} {r : UInt8 × List UInt8} {t : List (UInt8 × List UInt8)} (hb : bytes (r :: t) = a.head.bytes ++ a.body) (h1 : a.head.bytes.length ≤ r.2.length + 1)
    (h2 : r.2.length < 4096) : a.Sends ((r :: t).map fun x => x.1 :: x.2) := by
  have hb' : (r.1 :: r.2) ++ bytes t = a.head.bytes ++ a.body := by rw [← hb, bytes_cons]; rfl
  have hp : a.head.bytes <+: r.1 :: r.2 :=
    List.prefix_of_prefix_length_le (l₃ := a.head.bytes ++ a.body) (List.prefix_append _ _) (by rw [← hb']; exact List.prefix_append _ _) (by simpa using h1)
  obtain ⟨first, hf⟩ := hp
  refine ⟨first, t.map fun x => x.1 :: x.2, ?_, ?_, .inl ?_⟩
  · rw [← hf, List.append_assoc] at hb'
    rw [bytes_map]
    exact List.append_cancel_left hb'
  · rw [hf]; simp only [List.length_cons]; omega
  · rw [hf]; rfl

/-- The requests, their responses, and what a client reads. -/
theorem plan {home index : List UInt8} {E : Nat → Env} (n : Nat) (i : Nat) (asks : List Ask) (cuts : List (List (UInt8 × List UInt8))) (hb : AllPieces asks cuts)
    (hok : ∀ j (h : j < asks.length), asks[j].Ok home index (E (i + j)) ∧ Dated (E (i + j))) (hk : ∀ j (h : j + 1 < asks.length), asks[j].keeps) :
    ∃ R : List Rq, R.map (·.P) = cuts ∧ R.length = asks.length ∧ Fine (n + 1) home index E i R ∧
      ((∀ j (h : j < asks.length), Takes (E (i + j)) (asks[j].wanted home index (E (i + j))).length) → AllSwift E i R) ∧
      ∀ m next, readAll (asks.take m).length (full (R.take m) ++ next) = ((asks.take m).mapIdx fun j a => (200, a.wanted home index (E (i + j))), next) := by
  induction asks generalizing i cuts with
  | nil =>
    cases cuts with
    | nil => exact ⟨[], rfl, rfl, trivial, fun _ => trivial, fun m next => by simp [readAll, full]⟩
    | cons => exact hb.elim
  | cons a as ih =>
    cases cuts with
    | nil => exact hb.elim
    | cons p ps =>
      have h0 := hok 0 (by simp)
      simp only [List.getElem_cons_zero, Nat.add_zero] at h0
      obtain ⟨⟨g1, g2, r, t, g3, g4⟩, hb2⟩ := hb
      obtain ⟨R, i1, i2, i3, i4, i5⟩ := ih (i + 1) ps hb2 (fun j h => by
        have := hok (j + 1) (by simpa using h)
        rwa [show i + (j + 1) = i + 1 + j by omega] at this) (fun j h => hk (j + 1) (by simpa using h))
      -- the request in one way of receiving it
      have hne : ∃ b bs, a.head.bytes = b :: bs := by
        cases h : a.head.bytes with
        | nil => simp [Head.bytes] at h
        | cons b bs => exact ⟨b, bs, rfl⟩
      obtain ⟨b, bs, hbb⟩ := hne
      have hone : ∃ t0, bytes ((b, bs) :: t0) = a.head.bytes ++ a.body := by
        cases hbd : a.body with
        | nil => exact ⟨[], by rw [bytes_cons, hbb]; simp [bytes]⟩
        | cons x xs => exact ⟨[(x, xs)], by rw [bytes_cons, hbb]; simp [bytes]⟩
      obtain ⟨t0, ht0⟩ := hone
      have hl : bs.length < 4096 := by have := congrArg List.length hbb; simp only [List.length_cons] at this; omega
      have hs0 := sends_of (r := (b, bs)) ht0 (by rw [hbb]; simp) hl
      obtain ⟨hdr, body, keep, e1, e2, e3, e4, e5, e6⟩ := WebConn.ask_resp h0.1 h0.2.plain _ hs0 n
      refine ⟨⟨p, hdr, body, keep⟩ :: R, by rw [List.map_cons, i1], by simp [i2], ⟨⟨a.head.bytes.length, g1, ⟨r, t, g3, ?_⟩, e2, fun next => ?_, ?_⟩, ?_, i3⟩, ?_, ?_⟩
      · have := g4.length_le; simpa using this
      · obtain ⟨fs, h⟩ := e4 next; exact ⟨_, h⟩
      · intro r' t' q1 q2 q3
        rw [← e1]
        exact ask_same h0.1 _ _ (sends_of (q1.trans g2) q2 q3) hs0 n
      · intro hR
        refine e3.mpr (hk 0 ?_)
        cases R with
        | nil => exact absurd rfl hR
        | cons x R => simp only [List.length_cons] at i2 ⊢; omega
      · intro hT
        have hT0 := hT 0 (by simp)
        simp only [List.getElem_cons_zero, Nat.add_zero] at hT0
        obtain ⟨⟨q1, q2, q3, q4, q5⟩, q6⟩ := hT0
        refine ⟨⟨q1, q4, q6, by show (whole hdr body).length ≤ _; omega, ?_⟩, i4 fun j h => ?_⟩
        · intro f m hf
          rw [e6 f m hf]
          exact ⟨q2, q3⟩
        · have := hT (j + 1) (by simpa using h)
          simp only [List.getElem_cons_succ] at this
          rwa [show i + (j + 1) = i + 1 + j by omega] at this
      · intro m next
        cases m with
        | zero => simp [readAll, full]
        | succ m =>
          have hsh : ((as.take m).mapIdx fun j a => ((200 : Nat), a.wanted home index (E (i + (j + 1))))) = (as.take m).mapIdx fun j a => (200, a.wanted home index (E (i + 1 + j))) := by
            congr 1; funext j a; rw [show i + (j + 1) = i + 1 + j by omega]
          simp only [List.take_succ_cons, List.length_cons, readAll]
          obtain ⟨fs, e7⟩ := e4 (full (R.take m) ++ next)
          rw [show full (⟨p, hdr, body, keep⟩ :: R.take m) ++ next = whole hdr body ++ (full (R.take m) ++ next) by simp [full], e7]
          simp only [i5 m next, List.mapIdx_cons, Nat.add_zero, hsh]

/-- Nothing unread: something of the first request is still to come. -/
theorem Left.rest {k : Nat} {home index : List UInt8} {E : Nat → Env} {e : Env} {ps : Ps} {i : Nat} {q : Rq} {todo : List Rq} {s : List ((UInt8 × List UInt8) × Nat)}
    (hF : Fine k home index E i (q :: todo)) (h : Left k home index e ps i [] s (q :: todo)) : ∃ x ∈ s, x.2 = i := by
  obtain ⟨fut, h1, h2⟩ := h
  cases fut with
  | cons x fut => exact ⟨(x, i), by rw [h1]; simp, rfl⟩
  | nil =>
    exfalso
    rcases h2 with ⟨-, h2⟩ | h2
    · obtain ⟨⟨H, -, ⟨r, t, e1, -⟩, -⟩, -⟩ := hF
      rw [e1] at h2; cases h2
    · have := h2 [] rfl
      simp [resp, WebConn.feedAll] at this

theorem full_mono (R : List Rq) (a b : Nat) (h : a ≤ b) : full (R.take a) <+: full (R.take b) := by
  have h1 := List.take_append_drop a (R.take b)
  rw [List.take_take, Nat.min_eq_left h] at h1
  rw [← h1, full_append]
  exact List.prefix_append _ _

theorem answers (n : Nat) (home index : List UInt8) (E : Nat → Env) (rx : List Nat) (es : List Ev) (s : List ((UInt8 × List UInt8) × Nat)) (r : C)
    (asks : List Ask) (cuts : List (List (UInt8 × List UInt8))) (hb : AllPieces asks cuts)
    (hp : play (n + 1) home index E (script 0 cuts) (start (n + 1) home index E rx []) es = some (s, r))
    (hok : ∀ j (h : j < asks.length), asks[j].Ok home index (E j) ∧ Dated (E j)) (hk : ∀ j (h : j + 1 < asks.length), asks[j].keeps)
    (live : Bool) (hT : live = true → (∀ j (h : j < asks.length), Takes (E j) (asks[j].wanted home index (E j)).length) ∧ Ev.timeout ∉ es) :
    r.ph ≠ .gone .crash ∧ r.ph ≠ .gone .spin ∧ r.ph ≠ .gone .abort ∧
    ∃ full : Nat → List UInt8, (∀ m next, readAll (asks.take m).length (full m ++ next) = ((asks.take m).mapIdx fun j a => (200, a.wanted home index (E j)), next)) ∧
      sent r <+: full asks.length ∧ (r.ph = .gone .done → sent r = full asks.length) ∧
      (∀ ps, r.ph = .req ps → r.sock = [] → ∀ m, m ≤ asks.length → (∀ x ∈ s, m ≤ x.2) → full m <+: sent r) ∧
      (live = true → (∀ w kp, r.ph ≠ .rsp w kp) ∧ ∀ y, r.ph = .gone y → sent r = full asks.length) := by
  obtain ⟨R, p1, p2, p3, p4, p5⟩ := plan (home := home) (index := index) (E := E) n 0 asks cuts hb (by simpa using hok) hk
  simp only [Nat.zero_add] at p4 p5
  have hS : live = true → AllSwift E 0 R := fun hl => p4 (hT hl).1
  have hI := play_inv p3 hS es (fun hl => (hT hl).2) (start_inv p3 hS rx) (by rw [p1]; exact hp)
  have hall : R.take asks.length = R := List.take_of_length_le (by omega)
  have hI2 := hI.2
  cases hph : r.ph with
  | req ps =>
    rw [hph] at hI2
    obtain ⟨done, todo, h1, h2, h3, h4⟩ := hI2
    have hsent : sent r = full done := by simp only [sent, hph, h3]
    refine ⟨by simp, by simp, by simp, fun m => full (R.take m), p5, ?_, by simp, ?_, fun _ => ⟨by simp, by simp⟩⟩
    · simp only [hall, hsent]; rw [h1, full_append]; exact List.prefix_append _ _
    · intro ps' _ hs m hm hx
      rw [hsent]
      have hF' : Fine (n + 1) home index E r.i todo := by rw [h1] at p3; have := p3.tail; rwa [Nat.zero_add, ← h2] at this
      have hd : done = R.take done.length := by rw [h1, List.take_left']; rfl
      have hle : m ≤ done.length := by
        cases todo with
        | nil => have := congrArg List.length h1; simp only [List.append_nil] at this; omega
        | cons q todo =>
          rw [hs] at h4
          obtain ⟨x, hx1, hx2⟩ := Left.rest hF' h4
          have := hx x hx1
          omega
      rw [hd]
      exact full_mono R _ _ hle
  | rsp w kp =>
    rw [hph] at hI2
    obtain ⟨hl, done, q, todo, h1, h2, h3, h4, h5, h6, h7, h8⟩ := hI2
    refine ⟨by simp, by simp, by simp, fun m => full (R.take m), p5, ?_, by simp, by simp, fun h => by rw [hl] at h; cases h⟩
    simp only [hall, sent, hph, h3]
    exact full_prefix h1 h6.2.1
  | gone y =>
    rw [hph] at hI2
    obtain ⟨h1, h2, h3, h4, h5, h6⟩ := hI2
    have hsent : sent r = r.out := by simp only [sent, hph]
    refine ⟨by simp [h4], by simp [h5], by simp [h6], fun m => full (R.take m), p5, ?_, ?_, by simp, fun hl => ⟨by simp, ?_⟩⟩
    · simp only [hall, hsent]; exact h1
    · intro h; cases h; simp only [hall, hsent]; exact h2 rfl
    · intro _ _; simp only [hall, hsent]; exact h3 hl

/-! ### A case -/

/-- An environment in which nothing has to wait. The home directory is `/w`; `/w/a.txt` has three bytes. -/
def exEnv (j : Nat) : Env := { WebConn.exEnv j with dst := List.replicate 9000 (.sent 20000) }

/-- The pieces of the three requests: the third in three, with its body in two of them. -/
def exCuts : List (List (UInt8 × List UInt8)) :=
  [[WebConn.exRec WebConn.exDate.head.bytes], [WebConn.exRec WebConn.exFile.head.bytes], [WebConn.exRec WebConn.exEcho.head.bytes, (104, []), (105, [])]]

theorem exPieces : AllPieces [WebConn.exDate, WebConn.exFile, WebConn.exEcho] exCuts :=
  ⟨⟨by decide, by decide +kernel, _, _, rfl, by decide +kernel⟩, ⟨by decide, by decide +kernel, _, _, rfl, by decide +kernel⟩, ⟨by decide, by decide +kernel, _, _, rfl, by decide +kernel⟩, trivial⟩

/-- What happens: each request arrives and is reported; of the third, the body arrives before the report. -/
def exEvents : List Ev :=
  let d := WebConn.exRec WebConn.exDate.head.bytes
  let f := WebConn.exRec WebConn.exFile.head.bytes
  let e := WebConn.exRec WebConn.exEcho.head.bytes
  [.arrive d.1 d.2, .r, .arrive f.1 f.2, .r, .r, .arrive e.1 e.2, .arrive 104 [], .arrive 105 [], .close, .r]

/-- The receive calls of the third request get: the head and one byte of the body; the rest. -/
def exRx : List Nat := [0, 0, 1]

theorem exPlay : (play 1 [47, 119] [105] exEnv (script 0 exCuts) (start 1 [47, 119] [105] exEnv exRx []) exEvents).isSome = true := by decide +kernel

theorem exTakes (j n : Nat) (hn : n ≤ 40) : Takes (exEnv j) n := by
  have h1 : ∀ m, Spec.WebSend.sents (List.replicate m (.sent 20000)) = m := by
    intro m
    induction m with
    | zero => rfl
    | succ m ih => rw [List.replicate_succ, Spec.WebSend.sents, ih]
  have h2 : ∀ m, Spec.WebSend.waits (List.replicate m (.sent 20000)) = 0 := by
    intro m
    induction m with
    | zero => rfl
    | succ m ih => rw [List.replicate_succ, Spec.WebSend.waits, ih]; intro r h; cases h
  obtain ⟨a1, a2, a3, -, -⟩ := WebConn.exAble j n hn
  refine ⟨⟨a1, a2, a3, ?_, ?_⟩, h2 9000⟩
  · intro x hx
    exact .inr ⟨_, List.eq_of_mem_replicate hx, by omega⟩
  · simp only [exEnv, h1]; omega

theorem exOk (j : Nat) (h : j < [WebConn.exDate, WebConn.exFile, WebConn.exEcho].length) :
    [WebConn.exDate, WebConn.exFile, WebConn.exEcho][j].Ok [47, 119] [105] (exEnv j) ∧ Dated (exEnv j) := by
  match j, h with
  | 0, _ => exact ⟨WebConn.exDate_ok _, WebConn.exDated 0⟩
  | 1, _ => exact ⟨WebConn.exFile_ok, WebConn.exDated 1⟩
  | 2, _ => exact ⟨WebConn.exEcho_ok _, WebConn.exDated 2⟩

theorem exKeeps (j : Nat) (h : j + 1 < [WebConn.exDate, WebConn.exFile, WebConn.exEcho].length) : [WebConn.exDate, WebConn.exFile, WebConn.exEcho][j].keeps := by
  match j, h with
  | 0, _ => exact ⟨_, List.mem_singleton.mpr rfl, .inl rfl, .inl rfl⟩
  | 1, _ => exact ⟨_, List.mem_singleton.mpr rfl, .inl rfl, .inl rfl⟩

/-! ### C114 -/

/-- C114, callbacks. On a connection of the web server without TLS no callback of another phase and no NULL is ever called, whatever arrives on it and however often sending has to
wait. Readability is reported at any time, and while a request is read it continues the reading; writability is never reported. -/
theorem c114_waits (k : Nat) (home index : List UInt8) (E : Nat → Env) (rx : List Nat) (sock : List (UInt8 × List UInt8)) (es : List Ev)
    (hp : Possible k home index E (start k home index E rx sock) es) :
    ∃ r, run k home index E (start k home index E rx sock) es = some r ∧
      match r.ph with
      | .req _ => r.t.rcb = some (.app 20) ∧ r.t.opt = ⟨true, false⟩
      | .rsp w _ => w.t.rcb = some (.app 0) ∧ w.t.opt = ⟨true, false⟩
      | .gone _ => True := by
  obtain ⟨r, h1, h2⟩ := run_reg es (start_reg rx sock) hp
  refine ⟨r, h1, ?_⟩
  unfold Reg at h2
  cases hph : r.ph with
  | req ps => rw [hph] at h2; exact ⟨h2.1, h2.2.2⟩
  | rsp w kp => rw [hph] at h2; exact ⟨h2.2.2.2, h2.2.2.1⟩
  | gone y => trivial

/-- C114, the end of the client. When the client ends its direction and all it sent was received, the report of this ends the connection, while a request is read as well as while a response
waits. As long as the client has not ended its direction such a report changes nothing. If there are bytes that were not received, a response that waits goes on waiting, whether the client
has ended its direction or not. -/
theorem c114_hangup (k : Nat) (home index : List UInt8) (E : Nat → Env) (rx : List Nat) (sock : List (UInt8 × List UInt8)) (es : List Ev)
    (hp : Possible k home index E (start k home index E rx sock) es) :
    ∃ c, run k home index E (start k home index E rx sock) es = some c ∧ ((∀ y, c.ph ≠ .gone y) →
      (c.sock = [] → ∃ r, run k home index E c [.close, .r] = some r ∧ r.ph = .gone .closed) ∧
      (c.sock = [] → c.fin = false → ∃ r, run k home index E c [.r] = some r ∧ (∀ y, r.ph ≠ .gone y) ∧ sent r = sent c) ∧
      (c.sock ≠ [] → ∀ w keep, c.ph = .rsp w keep → ∃ r w', run k home index E c [.close, .r] = some r ∧ r.ph = .rsp w' keep ∧ sent r = sent c ∧ r.sock = c.sock)) := by
  obtain ⟨c, h1, h2⟩ := run_reg es (start_reg rx sock) hp
  refine ⟨c, h1, fun hl => ?_⟩
  clear h1
  obtain ⟨i, t, so, fi, rx', out, ph⟩ := c
  unfold Reg at h2
  dsimp only at h2 hl ⊢
  cases ph with
  | gone y => exact (hl y rfl).elim
  | req ps =>
    obtain ⟨f1, -, -⟩ := h2
    refine ⟨fun hs => ?_, fun hs hf => ?_, fun _ w keep h => by cases h⟩
    · subst hs
      refine ⟨⟨i, t, [], true, rx', out, .gone .closed⟩, ?_, rfl⟩
      simp only [run, step, f1, Option.bind_some]
      rw [proc.eq_def]
      rfl
    · subst hs hf
      refine ⟨⟨i, t, [], false, rx', out, .req ps⟩, ?_, (fun y h => by cases h), rfl⟩
      simp only [run, step, f1, Option.bind_some]
      rw [proc.eq_def]
      rfl
  | rsp w keep =>
    obtain ⟨f1, -, -, f2⟩ := h2
    refine ⟨fun hs => ?_, fun hs hf => ?_, fun hs w' keep' h => ?_⟩
    · subst hs
      refine ⟨⟨i, t, [], true, rx', out ++ w.out, .gone .closed⟩, ?_, rfl⟩
      simp only [run, step, WebSend.step, f1, f2, Option.bind_some, Option.map_some, peek, if_true, WebSend.tryRead, WebSend.finish, after]
    · subst hs hf
      refine ⟨⟨i, t, [], false, rx', out, .rsp { w with peek := [], wR := false } keep⟩, ?_, (fun y h => by cases h), rfl⟩
      simp only [run, step, WebSend.step, f1, f2, Option.bind_some, Option.map_some, peek, if_true, WebSend.tryRead, after, Bool.false_eq_true, if_false]
    · cases h
      refine ⟨⟨i, t, so, true, rx', out, .rsp { w with peek := [], wR := false } keep⟩, { w with peek := [], wR := false }, ?_, rfl, rfl, rfl⟩
      simp only [run, step, WebSend.step, f1, f2, Option.bind_some, Option.map_some, peek, hs, WebSend.tryRead, after, if_false]

/-- Case: a request was answered, the connection is kept, the client ends its direction. -/
example : ((run 1 [47, 119] [105] exEnv (start 1 [47, 119] [105] exEnv [] [WebConn.exRec WebConn.exDate.head.bytes]) [.close, .r]).map fun c =>
    match c.ph with | .gone .closed => true | _ => false) = some true := by decide +kernel

/-- Case: a report of readability with nothing there, then one byte, a report, and the timer. -/
example : Possible 1 [47, 119] [105] exEnv (start 1 [47, 119] [105] exEnv [] []) [.r, .arrive 71 [], .timeout] := by
  have h : start 1 [47, 119] [105] exEnv [] [] = { i := 0, t := ⟨⟨true, false⟩, some (.app 20), none, ⟨false, false⟩, none, none⟩, sock := [], fin := false, rx := [], out := [], ph := .req .line } := by
    simp only [start, begin]
    rw [proc.eq_def]
    rfl
  rw [h]
  refine ⟨rfl, fun c' _ => ⟨trivial, fun c'' _ => ⟨trivial, fun _ _ => trivial⟩⟩⟩

/-- C114, answers. A client sends requests, each with `Connection: keep-alive` except perhaps the last, for files that exist, for the date or for an echo: the head of each in one
piece, the body in any pieces, and the next request when it has read the response to the former one. Whatever the order of events, however many pieces a receive call gets, and
whether sending waits or fails: what was sent to the client is a beginning of the responses with code 200 and the wanted contents, one for each request, in the order of the
requests; whenever the connection waits for a request with nothing unread, the responses to all requests that were sent completely have been sent; when the connection
ended in order, all; and the parser and the router never fail. Missing from the full statement: heads that are cut (C32) and requests that are sent before the response to the
former one was read (`c114_pipelined_counterexample`), for which it is false. -/
theorem c114_answers_partial (n : Nat) (home index : List UInt8) (E : Nat → Env) (rx : List Nat) (es : List Ev) (s : List ((UInt8 × List UInt8) × Nat)) (r : C)
    (asks : List Ask) (cuts : List (List (UInt8 × List UInt8))) (hb : AllPieces asks cuts)
    (hp : play (n + 1) home index E (script 0 cuts) (start (n + 1) home index E rx []) es = some (s, r))
    (hok : ∀ j (h : j < asks.length), asks[j].Ok home index (E j) ∧ Dated (E j)) (hk : ∀ j (h : j + 1 < asks.length), asks[j].keeps) :
    r.ph ≠ .gone .crash ∧ r.ph ≠ .gone .spin ∧ r.ph ≠ .gone .abort ∧
    ∃ full : Nat → List UInt8, (∀ m next, readAll (asks.take m).length (full m ++ next) = ((asks.take m).mapIdx fun j a => (200, a.wanted home index (E j)), next)) ∧
      sent r <+: full asks.length ∧ (r.ph = .gone .done → sent r = full asks.length) ∧
      ∀ ps, r.ph = .req ps → r.sock = [] → ∀ m, m ≤ asks.length → (∀ x ∈ s, m ≤ x.2) → full m <+: sent r := by
  obtain ⟨h1, h2, h3, full, h4, h5, h6, h7, -⟩ := answers n home index E rx es s r asks cuts hb hp hok hk false (by simp)
  exact ⟨h1, h2, h3, full, h4, h5, h6, h7⟩

/-- Case: the beginning of the history of the three requests, when two of them were answered, and the head of the third has arrived. -/
example :
    ((play 1 [47, 119] [105] exEnv (script 0 exCuts) (start 1 [47, 119] [105] exEnv exRx []) (exEvents.take 6)).map fun x => readAll 3 (sent x.2)) =
      some ([(200, WebConn.exNow), (200, [120, 121, 122])], []) ∧
    ((play 1 [47, 119] [105] exEnv (script 0 exCuts) (start 1 [47, 119] [105] exEnv exRx []) (exEvents.take 6)).map fun x => x.1) =
      some [((104, []), 2), ((105, []), 2)] := by decide +kernel

/-- C114, delivery. If sending never has to wait, memory is available, and the files can be read, then at the end of every history of such a client in which it has sent all its
requests, the timer did not run out, and the last event was reported, all requests have been answered: the client has got exactly one response with code 200 and the wanted content for each of them, in
the order of the requests - also when it has ended its direction right after the last request. -/
theorem c114_delivers_partial (n : Nat) (home index : List UInt8) (E : Nat → Env) (rx : List Nat) (es : List Ev) (r : C) (asks : List Ask)
    (cuts : List (List (UInt8 × List UInt8))) (hb : AllPieces asks cuts)
    (hp : play (n + 1) home index E (script 0 cuts) (start (n + 1) home index E rx []) (es ++ [.r]) = some ([], r)) (ht : Ev.timeout ∉ es)
    (hok : ∀ j (h : j < asks.length), asks[j].Ok home index (E j) ∧ Dated (E j)) (hk : ∀ j (h : j + 1 < asks.length), asks[j].keeps)
    (hT : ∀ j (h : j < asks.length), Takes (E j) (asks[j].wanted home index (E j)).length) :
    readAll asks.length (sent r) = (asks.mapIdx fun j a => (200, a.wanted home index (E j)), []) := by
  obtain ⟨-, -, -, full, h4, h5, -, h7, h8⟩ := answers n home index E rx _ [] r asks cuts hb hp hok hk true (fun _ => ⟨hT, by simpa using ht⟩)
  obtain ⟨h8, h9⟩ := h8 rfl
  have : sent r = full asks.length := by
    cases hph : r.ph with
    | rsp w kp => exact absurd hph (h8 w kp)
    | gone y => exact h9 y hph
    | req ps =>
      refine (h5.eq_of_length_le (h7 ps hph ?_ _ (Nat.le_refl _) (by simp)).length_le)
      exact play_sock es (start_reads rx) hp ps hph
  have g := h4 asks.length []
  rwa [List.append_nil, ← this, List.take_length] at g

/-- Case: the date, a file and an echo on one connection, of which the client ends its direction after the last request. -/
example : ∃ r, play 1 [47, 119] [105] exEnv (script 0 exCuts) (start 1 [47, 119] [105] exEnv exRx []) exEvents = some ([], r) ∧
    readAll 3 (sent r) = ([(200, WebConn.exNow), (200, [120, 121, 122]), (200, [104, 105])], []) := by
  obtain ⟨⟨s, r⟩, h⟩ := Option.isSome_iff_exists.mp exPlay
  have hs : (play 1 [47, 119] [105] exEnv (script 0 exCuts) (start 1 [47, 119] [105] exEnv exRx []) exEvents).all (fun x => x.1.isEmpty) = true := by decide +kernel
  rw [h] at hs
  obtain rfl : s = [] := by simpa using hs
  refine ⟨r, h, ?_⟩
  refine c114_delivers_partial 0 [47, 119] [105] exEnv exRx exEvents.dropLast r _ exCuts exPieces (by exact h) (by decide +kernel) exOk exKeeps ?_
  intro j h
  match j, h with
  | 0, _ => exact exTakes _ _ (show (WebConn.exDate.wanted [47, 119] [105] (exEnv 0)).length ≤ 40 by decide +kernel)
  | 1, _ => exact exTakes _ _ (show (WebConn.exFile.wanted [47, 119] [105] (exEnv 1)).length ≤ 40 by decide +kernel)
  | 2, _ => exact exTakes _ _ (show (WebConn.exEcho.wanted [47, 119] [105] (exEnv 2)).length ≤ 40 by decide +kernel)

/-- The environment of a client that does not read: the first send call of the response to the date has to wait. -/
def exWait (j : Nat) : Env := { WebConn.exEnv j with dst := [.wait false, .sent 20000] }

/-- C114, sending that has to wait: once a response could not be sent at once - the socket buffer is full, which happens for every file that is larger than it - nothing more
is ever sent on the connection, whatever happens on it: writability is not in the interest. The connection lasts until the client ends it or the timer runs out. The full
statement that the client gets the responses is false for such responses. -/
theorem c114_stalls_counterexample (k : Nat) (home index : List UInt8) (E : Nat → Env) (rx : List Nat) (sock : List (UInt8 × List UInt8)) (es : List Ev)
    (hp : Possible k home index E (start k home index E rx sock) es) (c : C) (hc : run k home index E (start k home index E rx sock) es = some c)
    (w : WebSend.W) (keep : Bool) (hw : c.ph = .rsp w keep) (es' : List Ev) (hp' : Possible k home index E c es') :
    ∃ r, run k home index E c es' = some r ∧ sent r = sent c ∧ ((∃ w', r.ph = .rsp w' keep) ∨ r.ph = .gone .closed ∨ r.ph = .gone .expired) := by
  obtain ⟨c0, g1, g2⟩ := run_reg es (start_reg rx sock) hp
  obtain rfl : c0 = c := by rw [hc] at g1; cases g1; rfl
  clear hc hp g1
  have hg : ∀ (es : List Ev) (c : C) (y : Why), c.ph = .gone y → ∃ r, run k home index E c es = some r ∧ sent r = sent c ∧ r.ph = .gone y := by
    intro es
    induction es with
    | nil => exact fun c y h => ⟨c, rfl, rfl, h⟩
    | cons e es ih =>
      intro c y h
      have : ∃ c', step k home index E c e = some c' ∧ c'.ph = .gone y ∧ c'.out = c.out := by
        cases e <;> simp only [step, h] <;> first | exact ⟨_, rfl, h, rfl⟩ | exact ⟨_, rfl, rfl, rfl⟩
      obtain ⟨c', h1, h2, h3⟩ := this
      obtain ⟨r, r1, r2, r3⟩ := ih c' y h2
      refine ⟨r, by simp only [run, h1, Option.bind_some, r1], ?_, r3⟩
      rw [r2]; simp only [sent, h2, h, h3]
  induction es' generalizing c0 w with
  | nil => exact ⟨c0, rfl, rfl, .inl ⟨w, hw⟩⟩
  | cons e es ih =>
    obtain ⟨hr, hrest⟩ := hp'
    have key : ∀ (x : WebSend.Ev) (v : WebSend.W), v.fin = none → (v.tls = false ∧ WebSend.Stuck v) → Spec.WebSend.Reportable v x → v.out = w.out →
        ∃ c', (WebSend.step v x).map (fun w' => after k home index E c0 w' keep) = some c' ∧ sent c' = sent c0 ∧
          ((∃ w', c'.ph = .rsp w' keep) ∨ c'.ph = .gone .closed ∨ c'.ph = .gone .expired) := by
      intro x v hv hs hx ho
      obtain ⟨w', h1, -, h3, h4, -⟩ := step_still hs hx
      refine ⟨_, by rw [h1]; rfl, ?_⟩
      rw [hv] at h4
      rcases h4 with h4 | h4 | h4
      · unfold after; simp only [h4, sent, hw, h3, ho]; exact ⟨trivial, .inl ⟨w', rfl⟩⟩
      · unfold after; simp only [h4, sent, hw, h3, ho]; exact ⟨trivial, .inr (.inl trivial)⟩
      · unfold after; simp only [h4, sent, hw, h3, ho]; exact ⟨trivial, .inr (.inr trivial)⟩
    obtain ⟨c', s1, s2⟩ := step_reg (k := k) (home := home) (index := index) (E := E) g2 hr
    have : sent c' = sent c0 ∧ ((∃ w', c'.ph = .rsp w' keep) ∨ c'.ph = .gone .closed ∨ c'.ph = .gone .expired) := by
      have g3 := g2
      unfold Reg at g3
      rw [hw] at g3
      cases e with
      | arrive b bs => cases s1; exact ⟨by simp only [sent, hw], .inl ⟨w, hw⟩⟩
      | close => cases s1; exact ⟨by simp only [sent, hw], .inl ⟨w, hw⟩⟩
      | r =>
        obtain ⟨c1, k1, k2⟩ := key .r { w with peek := [peek c0] } g3.1 g3.2 (by simpa only [Reportable, hw, Spec.WebSend.Reportable] using hr) rfl
        simp only [step, hw] at s1
        rw [k1] at s1; cases s1; exact k2
      | w =>
        obtain ⟨c1, k1, k2⟩ := key .w w g3.1 g3.2 (by simpa only [Reportable, hw, Spec.WebSend.Reportable] using hr) rfl
        simp only [step, hw] at s1
        rw [k1] at s1; cases s1; exact k2
      | timeout =>
        obtain ⟨c1, k1, k2⟩ := key .timeout w g3.1 g3.2 trivial rfl
        simp only [step, hw] at s1
        rw [k1] at s1; cases s1; exact k2
    obtain ⟨t1, t2⟩ := this
    rcases t2 with ⟨w', t2⟩ | t2 | t2
    · obtain ⟨r, r1, r2, r3⟩ := ih w' c' s2 t2 (hrest c' s1)
      exact ⟨r, by simp only [run, s1, Option.bind_some, r1], r2.trans t1, r3⟩
    · obtain ⟨r, r1, r2, r3⟩ := hg es c' _ t2
      exact ⟨r, by simp only [run, s1, Option.bind_some, r1], r2.trans t1, .inr (.inl r3)⟩
    · obtain ⟨r, r1, r2, r3⟩ := hg es c' _ t2
      exact ⟨r, by simp only [run, s1, Option.bind_some, r1], r2.trans t1, .inr (.inr r3)⟩

/-- Case: a request for the date; nothing of the response is sent, although the second send call would take all of it. -/
example : (match (start 1 [47, 119] [105] exWait [] [WebConn.exRec WebConn.exDate.head.bytes]).ph with | .rsp w keep => w.out.isEmpty && w.dst == [.sent 20000] && keep | _ => false) = true := by
  decide +kernel

/-- One receive call gets a whole request, and the response is sent at once. -/
theorem start_one (n : Nat) (home index : List UInt8) (E : Nat → Env) (rx : List Nat) (b : UInt8) (bs : List UInt8) (hl : bs.length < 4096) (q : WebConn.Asked)
    (hf : WebConn.feed (n + 1) .line b bs = .req q) (hdr : List (List UInt8)) (body : WebSend.Body) (ha : answer home index (E 0) q = .rsp hdr body) (hk : q.keep = true)
    (hw : (WebSend.start false { WebSend.plainT with rcb := some (.app 20), wcb := none } hdr body (E 0).mem (E 0).rd (E 0).dst []).fin = some .done) :
    start (n + 1) home index E rx [(b, bs)] =
      { begin { i := 0, t := WebSend.plainT, sock := [], fin := false, rx := rx.drop 1,
                out := (WebSend.start false { WebSend.plainT with rcb := some (.app 20), wcb := none } hdr body (E 0).mem (E 0).rd (E 0).dst []).out, ph := .req .line } 1
          (WebSend.start false { WebSend.plainT with rcb := some (.app 20), wcb := none } hdr body (E 0).mem (E 0).rd (E 0).dst []).t with ph := .req .line } := by
  have hj : joined (rx.headD 0) (b, bs) [] = (b, bs) := by simp [joined]
  have hab : aborts (n + 1) .line b bs = false := by
    cases h : aborts (n + 1) .line b bs with
    | false => rfl
    | true => rw [aborts_stop h] at hf; cases hf
  have hlf : left 4096 (b, bs) [] = [] := by
    unfold left
    rw [List.drop_eq_nil_of_le (by simp only [List.length_cons]; omega)]
  unfold start
  rw [proc.eq_def]
  simp only [begin, room, Http.bufn, List.length_nil, hj, List.take_of_length_le (show bs.length ≤ 4096 - 1 by omega), hab, hf, ha, List.drop_nil, hlf]
  simp only [hw, hk]
  rw [proc.eq_def]
  simp

/-- C114, requests that are sent at once: if the client sends something right behind a request without a body, and the receive call gets both, then what was sent behind is lost:
the connection is in the same state as if the client had not sent it, waits for the next request with nothing unread, and has sent the one response. The full
statement that every request is answered is false for such clients. -/
theorem c114_pipelined_counterexample (n : Nat) (home index : List UInt8) (E : Nat → Env) (rx : List Nat) (a : Ask) (ha : a.Ok home index (E 0)) (hd : Dated (E 0)) (h0 : a.body = [])
    (hk : a.keeps) (hT : Takes (E 0) (a.wanted home index (E 0)).length) (x : List UInt8) (hl : (a.head.bytes ++ x).length ≤ 4096) (b b' : UInt8) (bs bs' : List UInt8)
    (hb : a.head.bytes ++ x = b :: bs) (hb' : a.head.bytes = b' :: bs') :
    start (n + 1) home index E rx [(b, bs)] = start (n + 1) home index E rx [(b', bs')] ∧
    (start (n + 1) home index E rx [(b, bs)]).ph = .req .line ∧ (start (n + 1) home index E rx [(b, bs)]).sock = [] ∧
    readAll 1 (sent (start (n + 1) home index E rx [(b, bs)])) = ([(200, a.wanted home index (E 0))], []) := by
  obtain ⟨-, h2⟩ := ask_announces ha
  rw [h0] at h2
  have hl' : (a.head.bytes ++ []).length ≤ 4096 := by rw [List.append_nil]; simp only [List.length_append] at hl; omega
  obtain ⟨k1, r1, e1, f1, g1⟩ := WebConn.after_request a.head ha.1 x hl 0 (by omega) (.inr rfl) h2 b bs hb n
  obtain ⟨k2, r2, e2, f2, g2⟩ := WebConn.after_request a.head ha.1 [] hl' 0 (by omega) (.inr rfl) h2 b' bs' (by rw [List.append_nil]; exact hb') n
  obtain rfl : k1 = k2 := by rw [Bool.eq_iff_iff, g1, g2]
  rw [if_pos rfl, f1] at e1
  rw [if_pos rfl, f2] at e2
  -- the response
  have hs : a.Sends [b' :: bs'] := by
    have := sends_of (a := a) (r := (b', bs')) (t := []) (by rw [bytes_cons, h0, hb']; simp [bytes]) (by rw [hb']; simp) (by
      rw [List.append_nil, hb'] at hl'; simp only [List.length_cons] at hl' ⊢; omega)
    exact this
  obtain ⟨hdr, body, keep, q1, q2, q3, q4, q5, q6⟩ := WebConn.ask_resp ha hd.plain [(b', bs')] hs n
  obtain ⟨x0, z, y1, -, y2⟩ := resp_cons q1
  obtain ⟨rfl, rfl⟩ := List.cons.inj y1
  have hf2 : WebConn.feed (n + 1) .line b' bs' = .req ⟨a.head.target.length, a.head.target, Http.methodTyp a.head.method, k1, none⟩ := e2
  have hf1 : WebConn.feed (n + 1) .line b bs = .req ⟨a.head.target.length, a.head.target, Http.methodTyp a.head.method, k1, none⟩ := e1
  rw [hf2] at y2
  rcases y2 with ⟨ps', y2, -⟩ | ⟨-, q, y2, y3, y4⟩
  · cases y2
  injection y2 with y2
  subst y2
  obtain rfl : k1 = true := y4.trans (q3.mpr hk)
  obtain ⟨⟨t1, t2, t3, t4, t5⟩, t6⟩ := hT
  have hdone : (WebSend.start false { WebSend.plainT with rcb := some (.app 20), wcb := none } hdr body (E 0).mem (E 0).rd (E 0).dst []).fin = some .done := by
    have := WebSend.start_live (hdr := hdr) false { WebSend.plainT with rcb := some (.app 20), wcb := none } [] t4 (by omega) q2 (fun f m h => by rw [q6 f m h]; exact ⟨t2, t3⟩)
    rw [← t1] at this
    rcases this with h | ⟨-, -, h⟩
    · exact h
    · omega
  have hout := (WebSend.start_ok false { WebSend.plainT with rcb := some (.app 20), wcb := none } hdr body (E 0).mem (E 0).rd (E 0).dst []).2.2 hdone q2
  have hL : bs.length < 4096 := by rw [hb] at hl; simp only [List.length_cons] at hl; omega
  have hL' : bs'.length < 4096 := by rw [List.append_nil, hb'] at hl'; simp only [List.length_cons] at hl'; omega
  have p1 := start_one n home index E rx b bs hL _ hf1 hdr body y3 rfl hdone
  have p2 := start_one n home index E rx b' bs' hL' _ hf2 hdr body y3 rfl hdone
  refine ⟨p1.trans p2.symm, by rw [p1], by rw [p1]; rfl, ?_⟩
  rw [p1]
  obtain ⟨fs, q4⟩ := q4 []
  rw [List.append_nil] at q4
  simp only [sent, hout, begin, readAll, q4]

/-- Case: behind a request for the date the client sends another one in the same piece; one response comes. -/
example : readAll 2 (sent (start 1 [47, 119] [105] exEnv [] [WebConn.exRec (WebConn.exDate.head.bytes ++ WebConn.exDate.head.bytes)])) = ([(200, WebConn.exNow)], []) := by decide +kernel

/-- C114, the end of the worker: a request line of exactly 4096 bytes fills the buffer, and the next receive call has no room: the assertion in `recvs` ends the process, with
all connections of all clients. -/
theorem c114_abort_counterexample (n : Nat) (home index : List UInt8) (E : Nat → Env) (rx : List Nat) (h : Head) (ok : h.Ok) (hl : h.line.length = 4096)
    (b : UInt8) (bs : List UInt8) (hb : h.line = b :: bs) : (start (n + 1) home index E rx [(b, bs)]).ph = .gone .abort := by
  have ha := Http.c32_full_line_abort_counterexample [] h ok hl b bs hb n
  rw [hb] at hl
  simp only [List.length_cons] at hl
  unfold start
  rw [proc.eq_def]
  have hj : joined (rx.headD 0) (b, bs) [] = (b, bs) := by simp [joined]
  simp only [begin, room, Http.bufn, List.length_nil, hj, List.take_of_length_le (show bs.length ≤ 4096 - 1 by omega), aborts, ha]
  simp

/-- Case: `GET`, a target of 4081 bytes, `HTTP/1.1`. -/
example : ∃ (h : Head) (b : UInt8) (bs : List UInt8), h.Ok ∧ h.line = b :: bs ∧ (start 1 [47, 119] [105] exEnv [] [(b, bs)]).ph = .gone .abort := by
  have ok : (⟨[71, 69, 84], 47 :: List.replicate 4080 97, [72, 84, 84, 80, 47, 49, 46, 49], []⟩ : Head).Ok := by
    refine ⟨⟨by decide, by decide, by unfold Text; decide, by decide⟩, ⟨_, rfl, ?_, ?_⟩, ⟨by decide, by unfold Text; decide⟩, by decide, by simp⟩
    · intro b hb; rw [List.eq_of_mem_replicate hb]; decide
    · intro hb; exact absurd (List.eq_of_mem_replicate hb) (by decide)
  exact ⟨_, _, _, ok, rfl, c114_abort_counterexample 0 _ _ _ _ _ ok (by simp [Head.line, -List.reduceReplicate]) _ _ rfl⟩

end Verif.WebPlain
