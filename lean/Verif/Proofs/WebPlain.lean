import Verif.Spec.WebPlain
import Verif.Proofs.WebAsk
/-
Proofs about connections of the web server without TLS.
-/
namespace Verif.WebPlain
open Verif Verif.Spec.WebPlain
open Verif.WebConn (Env Ps room answer left size resp resp_cons)
open Verif.Spec.WebSend (whole Sized)

variable {k : Nat} {home index : List UInt8} {E : Nat → Env}

/-! ### What a receive call returns -/

theorem bytes_cons (r : UInt8 × List UInt8) (t : List (UInt8 × List UInt8)) : bytes (r :: t) = r.1 :: (r.2 ++ bytes t) := by simp [bytes]

theorem bytes_append (a b : List (UInt8 × List UInt8)) : bytes (a ++ b) = bytes a ++ bytes b := by simp [bytes]

theorem bytes_nil_iff {a : List (UInt8 × List UInt8)} : bytes a = [] ↔ a = [] := by
  cases a with
  | nil => simp [bytes]
  | cons r t => simp [bytes_cons]

theorem bytes_joined (j : Nat) (r : UInt8 × List UInt8) (rest : List (UInt8 × List UInt8)) : bytes (joined j r rest :: rest.drop j) = bytes (r :: rest) := by
  rw [bytes_cons, bytes_cons]
  simp only [joined, List.append_assoc]
  congr 2
  show bytes (rest.take j) ++ bytes (rest.drop j) = bytes rest
  rw [← bytes_append, List.take_append_drop]

theorem bytes_left (n : Nat) (hn : n ≠ 0) (g : UInt8 × List UInt8) (t : List (UInt8 × List UInt8)) :
    bytes ((g.1, g.2.take (n - 1)) :: left n g t) = bytes (g :: t) := by
  obtain ⟨m, rfl⟩ : ∃ m, n = m + 1 := ⟨n - 1, by omega⟩
  rw [bytes_cons, bytes_cons]
  simp only [Nat.add_sub_cancel]
  congr 1
  unfold left
  simp only [List.drop_succ_cons]
  split
  · rename_i h
    rw [List.take_of_length_le (by simpa using h)]
  · rename_i b bs h
    rw [bytes_cons]
    simp only
    rw [← List.cons_append, ← h, ← List.append_assoc, List.take_append_drop]

theorem aborts_stop {ps : Ps} {b : UInt8} {bs : List UInt8} (h : aborts k ps b bs = true) : WebConn.feed k ps b bs = .stop := by
  unfold aborts at h
  unfold WebConn.feed
  cases ps with
  | line => dsimp only at h ⊢; split at h <;> simp_all [WebConn.afterHead]
  | hdrs r buf pos => dsimp only at h ⊢; split at h <;> simp_all [WebConn.afterHead]
  | pay r buf n got => cases h

/-! ### Callbacks -/

/-- Interest and callbacks at any time when control is with the event loop. -/
def Reg (c : C) : Prop :=
  match c.ph with
  | .req _ => c.t.rcb = some (.app 20) ∧ c.t.wcb = none ∧ c.t.opt = ⟨true, false⟩
  | .rsp w _ => w.fin = none ∧ w.tls = false ∧ WebSend.Stuck w
  | .gone _ => True

theorem start_plain (t : Ssl.S) (ht : t.opt = ⟨true, false⟩) (hdr : List (List UInt8)) (body : WebSend.Body) (mem : Bool) (rd : List Nat) (dst : List TlsRelay.Wr)
    (peek : List WebSend.Peek) : WebSend.Stuck (WebSend.start false t hdr body mem rd dst peek) := by
  have := WebSend.hdrCall_kept { tls := false, t := { t with rcb := some (.app 0), wcb := some (.app 1) }, wR := true, wW := true, chain := hdr, body, ff := {}, mem, rd, dst, peek, out := [], fin := none } rfl
  exact ⟨this.1.trans ht, this.2⟩

theorem proc_reg (c : C) (ps : Ps) (h : c.t.rcb = some (.app 20) ∧ c.t.wcb = none ∧ c.t.opt = ⟨true, false⟩) : Reg (proc k home index E c ps) := by
  fun_induction proc k home index E c ps with
  | case1 => trivial
  | case2 => exact h
  | case3 => trivial
  | case4 => trivial
  | case5 c ps r rest hs hr j g sock rx ha ps' hf ih => exact ih h
  | case6 => trivial
  | case7 => trivial
  | case8 => trivial
  | case9 => trivial
  | case10 c ps r rest hs hr j g sock rx ha q hf hdr body hb w hw => exact ⟨hw, WebSend.hdrCall_tls _, start_plain _ h.2.2 ..⟩
  | case11 c ps r rest hs hr j g sock rx ha q hf hdr body hb w hw hk ih => exact ih ⟨rfl, rfl, (start_plain _ h.2.2 ..).1⟩
  | case12 => trivial
  | case13 => trivial
  | case14 => trivial

theorem after_reg (c : C) (w : WebSend.W) (keep : Bool) (h : w.tls = false ∧ WebSend.Stuck w) : Reg (after k home index E c w keep) := by
  unfold after
  split
  · exact ⟨by assumption, h⟩
  · split
    · exact proc_reg _ _ ⟨rfl, rfl, h.2.1⟩
    · trivial
  · trivial
  · trivial

/-- An event that can be reported while a response waits sends nothing. -/
theorem step_still {w : WebSend.W} {e : WebSend.Ev} (h : w.tls = false ∧ WebSend.Stuck w) (hr : Spec.WebSend.Reportable w e) :
    ∃ w', WebSend.step w e = some w' ∧ (w'.tls = false ∧ WebSend.Stuck w') ∧ w'.out = w.out ∧ (w'.fin = w.fin ∨ w'.fin = some .closed ∨ w'.fin = some .expired) ∧
      (e = .timeout → w'.fin ≠ none) := by
  obtain ⟨w', h1, h2, h3, -, h4, h5⟩ := WebSend.step_stuck h.2 hr
  refine ⟨w', h1, ⟨?_, h2⟩, h3, h4, h5⟩
  have hs := h1
  unfold WebSend.step at hs
  split at hs
  · cases hs; exact h.1
  · cases e with
    | timeout => cases hs; exact h.1
    | w => simp [Spec.WebSend.Reportable, h.2.1] at hr
    | r =>
      simp only [h.2.2] at hs
      cases hs
      unfold WebSend.tryRead
      split <;> exact h.1

theorem step_reg {c : C} (h : Reg c) {e : Ev} (hr : Reportable c e) : ∃ c', step k home index E c e = some c' ∧ Reg c' := by
  have key : ∀ (w w0 : WebSend.W) (keep : Bool) (e' : WebSend.Ev), c.ph = .rsp w keep → w0.t = w.t → w0.tls = w.tls → Spec.WebSend.Reportable w0 e' →
      ∃ c', (WebSend.step w0 e').map (fun w' => after k home index E c w' keep) = some c' ∧ Reg c' := by
    intro w w0 keep e' hp ht htl hr'
    unfold Reg at h
    rw [hp] at h
    obtain ⟨w', h1, h2, -⟩ := step_still (w := w0) ⟨htl.trans h.2.1, by unfold WebSend.Stuck; rw [ht]; exact h.2.2⟩ hr'
    exact ⟨_, by rw [h1]; rfl, after_reg _ _ _ h2⟩
  cases e with
  | arrive b bs => exact ⟨_, rfl, h⟩
  | close => exact ⟨_, rfl, h⟩
  | r =>
    simp only [step]
    cases hp : c.ph with
    | gone y => exact ⟨c, rfl, h⟩
    | rsp w keep => exact key w _ keep .r hp rfl rfl (by simp only [Reportable, hp] at hr; exact hr)
    | req ps =>
      unfold Reg at h
      rw [hp] at h
      simp only [h.1]
      exact ⟨_, rfl, proc_reg _ _ h⟩
  | w =>
    simp only [step]
    cases hp : c.ph with
    | gone y => exact ⟨c, rfl, h⟩
    | rsp w keep => exact key w w keep .w hp rfl rfl (by simp only [Reportable, hp] at hr; exact hr)
    | req ps =>
      have h' := h
      unfold Reg at h'
      rw [hp] at h'
      simp only [h'.2.1]
      exact ⟨_, rfl, h⟩
  | timeout =>
    simp only [step]
    cases hp : c.ph with
    | gone y => exact ⟨c, rfl, h⟩
    | rsp w keep => exact key w w keep .timeout hp rfl rfl trivial
    | req ps => exact ⟨_, rfl, trivial⟩

theorem run_reg (es : List Ev) {c : C} (h : Reg c) (hp : Possible k home index E c es) : ∃ r, run k home index E c es = some r ∧ Reg r := by
  induction es generalizing c with
  | nil => exact ⟨c, rfl, h⟩
  | cons e es ih =>
    obtain ⟨c', h1, h2⟩ := step_reg h hp.1
    obtain ⟨r, h3, h4⟩ := ih h2 (hp.2 c' h1)
    exact ⟨r, by simp [run, h1, h3], h4⟩

theorem start_reg (rx : List Nat) (sock : List (UInt8 × List UInt8)) : Reg (start k home index E rx sock) := proc_reg _ _ ⟨rfl, rfl, rfl⟩

/-! ### What a client can know -/

theorem line_mono {p q x r : List UInt8} (h : RspSpec.line p = some (x, r)) : RspSpec.line (p ++ q) = some (x, r ++ q) := by
  fun_induction RspSpec.line p generalizing x r with
  | case1 => cases h
  | case2 r' => cases h; simp [RspSpec.line]
  | case3 b r' hn ih =>
    cases hl : RspSpec.line r' with
    | none => rw [hl] at h; cases h
    | some y =>
      rw [hl] at h
      cases h
      rw [List.cons_append, RspSpec.line.eq_def]
      have := ih (x := y.1) (r := y.2) hl
      split
      · rename_i h; cases h
      · rename_i b' r'' h
        cases h
        split
        · rename_i h' 
          cases r' with
          | nil => cases hl
          | cons c t => cases h'; exact (hn _ rfl rfl).elim
        · rw [this]; rfl

theorem fields_mono {p q : List UInt8} {fs : List (List UInt8 × List UInt8)} {r : List UInt8} (h : RspSpec.fields p = some (fs, r)) :
    RspSpec.fields (p ++ q) = some (fs, r ++ q) := by
  fun_induction RspSpec.fields p generalizing fs r with
  | case1 => cases h
  | case2 p r' hl => cases h; rw [RspSpec.fields.eq_def, line_mono hl]
  | case3 p b x r' hl f o hf ho ih =>
    cases h
    rw [RspSpec.fields.eq_def, line_mono hl]
    dsimp only
    rw [ho, ih (fs := o.1) (r := o.2) hf]
  | case4 => cases h

theorem read_mono {p q : List UInt8} {m : RspSpec.Msg} {r : List UInt8} (h : RspSpec.read p = some (m, r)) : RspSpec.read (p ++ q) = some (m, r ++ q) := by
  unfold RspSpec.read at h ⊢
  split at h
  · cases h
  · rename_i s r' hl
    rw [line_mono hl]
    dsimp only
    split at h
    · rename_i code fs rest hc hf
      rw [hc, fields_mono hf]
      dsimp only
      split at h
      · rename_i n hn
        split at h
        · rename_i hle
          cases h
          rw [if_pos (by simp; omega), List.take_append_of_le_length hle, List.drop_append_of_le_length hle]
        · cases h
      · cases h
    · cases h

/-- A part of a response is not taken for a response. -/
theorem read_short {p x : List UInt8} {m : RspSpec.Msg} (h : RspSpec.read x = some (m, [])) (hp : p <+: x) (hl : p.length < x.length) : RspSpec.read p = none := by
  obtain ⟨q, rfl⟩ := hp
  cases hr : RspSpec.read p with
  | none => rfl
  | some y =>
    have := read_mono (q := q) (m := y.1) (r := y.2) hr
    rw [h] at this
    simp only [Option.some.injEq, Prod.mk.injEq] at this
    have := congrArg List.length this.2
    simp only [List.length_append, List.length_nil] at this hl
    omega

/-! ### Responses -/

/-- A request and its response: the pieces, header and body of the response, whether the connection is kept. -/
structure Rq where
  P : List (UInt8 × List UInt8)
  hdr : List (List UInt8)
  body : WebSend.Body
  keep : Bool

/-- However the unread bytes are cut, reading them leads to the response. -/
def Ready (k : Nat) (home index : List UInt8) (e : Env) (ps : Ps) (U : List UInt8) (q : Rq) : Prop :=
  ∀ rs, bytes rs = U → resp k home index e ps rs = some (q.hdr, q.body, q.keep)

/-- However the pieces are received, if the first receive call gets the head - of `H` bytes - the response is the given one. -/
def Answered (k : Nat) (home index : List UInt8) (e : Env) (q : Rq) : Prop :=
  ∃ H, H ≤ 4096 ∧ (∃ r t, q.P = r :: t ∧ H ≤ r.2.length + 1) ∧ Sized q.body ∧ (∀ next, ∃ m, RspSpec.read (whole q.hdr q.body ++ next) = some (m, next)) ∧
    ∀ r t, bytes (r :: t) = bytes q.P → H ≤ r.2.length + 1 → r.2.length < 4096 → resp k home index e .line (r :: t) = some (q.hdr, q.body, q.keep)

/-- All requests from number `i` on are answered, and only the last can end the connection. -/
def Fine (k : Nat) (home index : List UInt8) (E : Nat → Env) : Nat → List Rq → Prop
  | _, [] => True
  | i, q :: R => Answered k home index (E i) q ∧ (R ≠ [] → q.keep = true) ∧ Fine k home index E (i + 1) R

theorem Fine.tail {i : Nat} {a b : List Rq} (h : Fine k home index E i (a ++ b)) : Fine k home index E (i + a.length) b := by
  induction a generalizing i with
  | nil => exact h
  | cons x a ih => have := ih h.2.2; rwa [show i + 1 + a.length = i + (x :: a).length by simp; omega] at this

/-- All responses. -/
def full (R : List Rq) : List UInt8 := R.flatMap fun q => whole q.hdr q.body

theorem full_append (a b : List Rq) : full (a ++ b) = full a ++ full b := by simp [full]

/-- What is left of the requests `todo`, of which the first has number `i` and was read up to `ps`: the pieces that have arrived, and the script. -/
def Left (k : Nat) (home index : List UInt8) (e : Env) (ps : Ps) (i : Nat) (sock : List (UInt8 × List UInt8)) (s : List ((UInt8 × List UInt8) × Nat)) : List Rq → Prop
  | [] => ps = .line ∧ sock = [] ∧ s = []
  | q :: todo => ∃ fut, s = fut.map (·, i) ++ script (i + 1) (todo.map (·.P)) ∧
      ((ps = .line ∧ sock ++ fut = q.P) ∨ Ready k home index e ps (bytes (sock ++ fut)) q)

/-- What holds of a connection whose client keeps to the script. `live`: nothing has to wait and nothing fails. -/
def Inv (k : Nat) (home index : List UInt8) (E : Nat → Env) (live : Bool) (R : List Rq) (s : List ((UInt8 × List UInt8) × Nat)) (c : C) : Prop :=
  (live = true → c.fin = true → s = []) ∧
  match c.ph with
  | .req ps => ∃ done todo, R = done ++ todo ∧ c.i = done.length ∧ c.out = full done ∧ Left k home index (E c.i) ps c.i c.sock s todo
  | .rsp w keep => live = false ∧ ∃ done q todo, R = done ++ q :: todo ∧ c.i = done.length ∧ c.out = full done ∧ c.sock = [] ∧ s = script (c.i + 1) (todo.map (·.P)) ∧
      WebSend.Ok q.hdr q.body w ∧ w.fin = none ∧ keep = q.keep
  | .gone why => c.out <+: full R ∧ (why = .done → c.out = full R) ∧ (live = true → c.out = full R) ∧ why ≠ .crash ∧ why ≠ .spin ∧ why ≠ .abort

/-- Responses are sent at once. -/
def Swift (e : Env) (q : Rq) : Prop :=
  e.mem = true ∧ Spec.WebSend.WholeOrWait e.dst ∧ Spec.WebSend.waits e.dst = 0 ∧ (whole q.hdr q.body).length ≤ Spec.WebSend.sents e.dst ∧
    ∀ f n, q.body = .file f n → (∀ x ∈ e.rd, 0 < x) ∧ f.length ≤ e.rd.length

/-- All of them. -/
def AllSwift (E : Nat → Env) : Nat → List Rq → Prop
  | _, [] => True
  | i, q :: R => Swift (E i) q ∧ AllSwift E (i + 1) R

theorem AllSwift.tail {i : Nat} {a b : List Rq} (h : AllSwift E i (a ++ b)) : AllSwift E (i + a.length) b := by
  induction a generalizing i with
  | nil => exact h
  | cons x a ih => have := ih h.2; rwa [show i + 1 + a.length = i + (x :: a).length by simp; omega] at this

/-- Nothing unread and nothing to come: all was answered. -/
theorem Left.over {e : Env} {ps : Ps} {i : Nat} {todo : List Rq} (hF : Fine k home index E i todo) (h : Left k home index e ps i [] [] todo) : todo = [] := by
  cases todo with
  | nil => rfl
  | cons q todo =>
    obtain ⟨fut, h1, h2⟩ := h
    have h3 := List.append_eq_nil_iff.mp h1.symm
    have h4 : fut = [] := by simpa using h3.1
    subst h4
    rcases h2 with ⟨-, h2⟩ | h2
    · obtain ⟨⟨H, -, ⟨r, t, e1, -⟩, -⟩, -⟩ := hF
      rw [e1] at h2; cases h2
    · have := h2 [] rfl
      simp [resp, WebConn.feedAll] at this

/-- The first request that was not read at all. -/
theorem Left.fresh (e : Env) (i : Nat) (todo : List Rq) : Left k home index e .line i [] (script i (todo.map (·.P))) todo := by
  cases todo with
  | nil => exact ⟨rfl, rfl, rfl⟩
  | cons q todo => exact ⟨q.P, rfl, .inl ⟨rfl, rfl⟩⟩

/-- One receive call: the request goes on or is complete. -/
theorem Left.next {ps : Ps} {i : Nat} {r : UInt8 × List UInt8} {rest : List (UInt8 × List UInt8)} {s : List ((UInt8 × List UInt8) × Nat)} {todo : List Rq}
    (h : Left k home index (E i) ps i (r :: rest) s todo) (hF : Fine k home index E i todo) (hr : room ps ≠ 0) (j : Nat) :
    ∃ q todo', todo = q :: todo' ∧
      ((∃ ps', WebConn.feed k ps (joined j r rest).1 ((joined j r rest).2.take (room ps - 1)) = .more ps' ∧
          Left k home index (E i) ps' i (left (room ps) (joined j r rest) (rest.drop j)) s todo) ∨
       (left (room ps) (joined j r rest) (rest.drop j) = [] ∧ s = script (i + 1) (todo'.map (·.P)) ∧
        ∃ a, WebConn.feed k ps (joined j r rest).1 ((joined j r rest).2.take (room ps - 1)) = .req a ∧ answer home index (E i) a = .rsp q.hdr q.body ∧ a.keep = q.keep)) := by
  cases todo with
  | nil => exact absurd h.2.1 (by simp)
  | cons q todo' =>
    refine ⟨q, todo', rfl, ?_⟩
    obtain ⟨fut, h1, h2⟩ := h
    have hb : bytes ((joined j r rest).1 :: [] |>.map (·, (joined j r rest).2.take (room ps - 1))) ++ bytes (left (room ps) (joined j r rest) (rest.drop j)) = bytes (r :: rest) := by
      rw [← bytes_append]
      exact (bytes_left _ hr _ _).trans (bytes_joined j r rest)
    generalize hJ : ((joined j r rest).1, (joined j r rest).2.take (room ps - 1)) = J at *
    generalize hL : left (room ps) (joined j r rest) (rest.drop j) = L at *
    have hJb : ∀ rs, bytes rs = bytes (L ++ fut) → bytes (J :: rs) = bytes (r :: rest ++ fut) := by
      intro rs hrs
      rw [show J :: rs = [J] ++ rs from rfl, bytes_append, hrs, bytes_append, bytes_append (r :: rest), ← List.append_assoc]
      congr 1
      rw [← hJ]
      exact hb
    have key : ∀ rs, bytes rs = bytes (L ++ fut) → resp k home index (E i) ps (J :: rs) = some (q.hdr, q.body, q.keep) := by
      intro rs hrs
      rcases h2 with ⟨rfl, h2⟩ | h2
      · obtain ⟨⟨H, g1, ⟨r0, t0, g2, g3⟩, -, -, g4⟩, -⟩ := hF
        have h2' := h2
        rw [g2, List.cons_append, List.cons.injEq] at h2'
        obtain ⟨rfl, -⟩ := h2'
        have hJ2 : J.2 = (joined j r rest).2.take (4096 - 1) := by rw [← hJ]; rfl
        refine g4 J rs ?_ ?_ ?_
        · rw [hJb rs hrs, h2]
        · rw [hJ2, List.length_take]
          simp only [joined, List.length_append]
          omega
        · rw [hJ2, List.length_take]; omega
      · exact h2 _ (hJb rs hrs)
    have hJ1 : (joined j r rest).1 = J.1 ∧ (joined j r rest).2.take (room ps - 1) = J.2 := by rw [← hJ]; exact ⟨rfl, rfl⟩
    rw [hJ1.1, hJ1.2]
    obtain ⟨x, q', e1, -, e2⟩ := resp_cons (key (L ++ fut) rfl)
    cases e1
    rcases e2 with ⟨ps', e2, -⟩ | ⟨e2, a, e3, e4, e5⟩
    · refine .inl ⟨ps', e2, fut, h1, .inr fun rs hrs => ?_⟩
      obtain ⟨y, q2, f1, -, f2⟩ := resp_cons (key rs hrs)
      cases f1
      rcases f2 with ⟨ps2, f2, f3⟩ | ⟨-, a, f3, -⟩
      · rw [e2] at f2; cases f2; exact f3
      · rw [e2] at f3; cases f3
    · have e6 := List.append_eq_nil_iff.mp e2
      refine .inr ⟨e6.1, ?_, a, e3, e4, e5⟩
      rw [h1, e6.2]; rfl

theorem full_prefix {R done todo : List Rq} {q : Rq} (h : R = done ++ q :: todo) {o : List UInt8} (ho : o <+: whole q.hdr q.body) : full done ++ o <+: full R := by
  rw [h, full_append, List.prefix_append_right_inj]
  exact ho.trans (List.prefix_append _ _)

theorem proc_inv (live : Bool) (c : C) (ps : Ps) (R done todo : List Rq) (s : List ((UInt8 × List UInt8) × Nat)) (hR : R = done ++ todo)
    (hi : c.i = done.length) (ho : c.out = full done) (hL : Left k home index (E c.i) ps c.i c.sock s todo) (hF : Fine k home index E c.i todo)
    (hS : live = true → AllSwift E c.i todo) (hc : live = true → c.fin = true → s = []) : Inv k home index E live R s (proc k home index E c ps) := by
  fun_induction proc k home index E c ps generalizing done todo with
  | case1 c ps hs hfin =>
    refine ⟨hc, ?_, by simp, fun hl => ?_, by simp, by simp, by simp⟩
    · rw [ho, hR, full_append]; exact List.prefix_append _ _
    · rw [hs, hc hl hfin] at hL
      rw [ho, hR, hL.over hF, List.append_nil]
  | case2 c ps hs hfin => exact ⟨hc, done, todo, hR, hi, ho, hL⟩
  | case3 c ps r rest hs hr =>
    exfalso
    rw [hs] at hL
    cases todo with
    | nil => exact absurd hL.2.1 (by simp)
    | cons q todo =>
      obtain ⟨fut, -, h2⟩ := hL
      rcases h2 with ⟨rfl, -⟩ | h2
      · cases hr
      · obtain ⟨x, q', -, e, -⟩ := resp_cons (h2 (r :: rest ++ fut) rfl)
        omega
  | case4 c ps r rest hs hr j g sock rx ha =>
    exfalso
    rw [hs] at hL
    obtain ⟨q, todo', -, ⟨ps', h1, -⟩ | ⟨-, -, a, h1, -⟩⟩ := hL.next hF hr j <;> rw [aborts_stop ha] at h1 <;> cases h1
  | case5 c ps r rest hs hr j g sock rx ha ps' hf ih =>
    rw [hs] at hL
    obtain ⟨q, todo', -, ⟨ps2, h1, h2⟩ | ⟨-, -, a, h1, -⟩⟩ := hL.next hF hr j
    · have : ps2 = ps' := by have := h1.symm.trans hf; cases this; rfl
      subst this
      exact ih done todo hR hi ho h2 hF hS hc
    · have := h1.symm.trans hf; cases this
  | case6 c ps r rest hs hr j g sock rx ha hf =>
    exfalso
    rw [hs] at hL
    obtain ⟨q, todo', -, ⟨ps', h1, -⟩ | ⟨-, -, a, h1, -⟩⟩ := hL.next hF hr j <;> (have := h1.symm.trans hf; cases this)
  | case7 c ps r rest hs hr j g sock rx ha hf =>
    exfalso
    rw [hs] at hL
    obtain ⟨q, todo', -, ⟨ps', h1, -⟩ | ⟨-, -, a, h1, -⟩⟩ := hL.next hF hr j <;> (have := h1.symm.trans hf; cases this)
  | case8 c ps r rest hs hr j g sock rx ha q hf hb =>
    exfalso
    rw [hs] at hL
    obtain ⟨q, todo', -, ⟨ps', h1, -⟩ | ⟨-, -, a, h1, h2, -⟩⟩ := hL.next hF hr j <;> (have := h1.symm.trans hf; cases this)
    rw [hb] at h2; cases h2
  | case9 c ps r rest hs hr j g sock rx ha q hf hb =>
    exfalso
    rw [hs] at hL
    obtain ⟨q, todo', -, ⟨ps', h1, -⟩ | ⟨-, -, a, h1, h2, -⟩⟩ := hL.next hF hr j <;> (have := h1.symm.trans hf; cases this)
    rw [hb] at h2; cases h2
  | case10 c ps r rest hs hr j g sock rx ha a hf hdr body hb w hw =>
    rw [hs] at hL
    obtain ⟨q, todo', rfl, ⟨ps', h1, -⟩ | ⟨h0, h00, a', h1, h2, h3⟩⟩ := hL.next hF hr j <;> (have := h1.symm.trans hf; cases this)
    rw [hb] at h2; cases h2
    have hlive : live = false := by
      cases live with
      | false => rfl
      | true =>
        exfalso
        obtain ⟨s1, s2, s3, s4, s5⟩ := (hS rfl).1
        obtain ⟨⟨H, -, -, z, -⟩, -⟩ := hF
        have := WebSend.start_live false c.t [] s2 s4 z s5
        rw [← s1] at this
        rcases this with h | ⟨-, -, h⟩
        · have := h.symm.trans hw; cases this
        · omega
    exact ⟨hc, hlive, done, q, todo', hR, hi, ho, h0, h00, WebSend.start_ok .., hw, h3⟩
  | case11 c ps r rest hs hr j g sock rx ha a hf hdr body hb w hw hk ih =>
    rw [hs] at hL
    obtain ⟨q, todo', rfl, ⟨ps', h1, -⟩ | ⟨h0, h00, a', h1, h2, h3⟩⟩ := hL.next hF hr j <;> (have := h1.symm.trans hf; cases this)
    rw [hb] at h2; cases h2
    have hz : Sized q.body := by obtain ⟨⟨H, -, -, z, -⟩, -⟩ := hF; exact z
    refine ih (done ++ [q]) todo' (by rw [hR]; simp) (by simp [begin, hi]) ?_ ?_ hF.2.2 (fun h => (hS h).2) hc
    · have : w.out = whole q.hdr q.body := (WebSend.start_ok ..).2.2 hw hz
      simp only [begin, ho, full_append, this]
      simp [full]
    · simp only [begin]
      rw [show sock = [] from h0, h00]
      exact Left.fresh _ _ _
  | case12 c ps r rest hs hr j g sock rx ha a hf hdr body hb w hw hk =>
    rw [hs] at hL
    obtain ⟨q, todo', rfl, ⟨ps', h1, -⟩ | ⟨h0, h00, a', h1, h2, h3⟩⟩ := hL.next hF hr j <;> (have := h1.symm.trans hf; cases this)
    rw [hb] at h2; cases h2
    have hz : Sized q.body := by obtain ⟨⟨H, -, -, z, -⟩, -⟩ := hF; exact z
    have hq : todo' = [] := by
      refine Decidable.byContradiction fun h => ?_
      have := hF.2.1 h
      rw [← h3] at this
      exact hk this
    have hw' : w.out = whole q.hdr q.body := (WebSend.start_ok ..).2.2 hw hz
    have : c.out ++ w.out = full R := by
      rw [ho, hw', hR, hq, full_append]; simp [full]
    exact ⟨hc, by rw [← this]; exact List.prefix_refl _, fun _ => this, fun _ => this, by simp, by simp, by simp⟩
  | case13 c ps r rest hs hr j g sock rx ha a hf hdr body hb w hw =>
    rw [hs] at hL
    obtain ⟨q, todo', rfl, ⟨ps', h1, -⟩ | ⟨h0, h00, a', h1, h2, h3⟩⟩ := hL.next hF hr j <;> (have := h1.symm.trans hf; cases this)
    rw [hb] at h2; cases h2
    refine ⟨hc, ?_, by simp, fun hl => ?_, by simp, by simp, by simp⟩
    · show c.out ++ w.out <+: _
      rw [ho]; exact full_prefix hR (WebSend.start_ok ..).2.1
    · exfalso
      obtain ⟨s1, s2, s3, s4, s5⟩ := (hS hl).1
      obtain ⟨⟨H, -, -, z, -⟩, -⟩ := hF
      have := WebSend.start_live false c.t [] s2 s4 z s5
      rw [← s1] at this
      rcases this with h | ⟨h, -, -⟩ <;> (have := h.symm.trans hw; cases this)
  | case14 c ps r rest hs hr j g sock rx ha a hf hdr body hb w hw =>
    rw [hs] at hL
    obtain ⟨q, todo', rfl, ⟨ps', h1, -⟩ | ⟨h0, h00, a', h1, h2, h3⟩⟩ := hL.next hF hr j <;> (have := h1.symm.trans hf; cases this)
    rw [hb] at h2; cases h2
    refine ⟨hc, ?_, by simp, fun hl => ?_, by simp, by simp, by simp⟩
    · show c.out ++ w.out <+: _
      rw [ho]; exact full_prefix hR (WebSend.start_ok ..).2.1
    · exfalso
      obtain ⟨s1, s2, s3, s4, s5⟩ := (hS hl).1
      obtain ⟨⟨H, -, -, z, -⟩, -⟩ := hF
      have := WebSend.start_live false c.t [] s2 s4 z s5
      rw [← s1] at this
      rcases this with h | ⟨h, -, -⟩ <;> (have := h.symm.trans hw; cases this)

theorem after_inv {R done todo : List Rq} {q : Rq} {s : List ((UInt8 × List UInt8) × Nat)} {c : C} {w : WebSend.W} (hR : R = done ++ q :: todo) (hi : c.i = done.length)
    (ho : c.out = full done) (h0 : c.sock = []) (hs : s = script (c.i + 1) (todo.map (·.P))) (hw : WebSend.Ok q.hdr q.body w) (hF : Fine k home index E c.i (q :: todo)) :
    Inv k home index E false R s (after k home index E c w q.keep) := by
  have hz : Sized q.body := by obtain ⟨⟨H, -, -, z, -⟩, -⟩ := hF; exact z
  unfold after
  split
  · exact ⟨by simp, rfl, done, q, todo, hR, hi, ho, h0, hs, hw, by assumption, rfl⟩
  · rename_i hw1
    have hw' : w.out = whole q.hdr q.body := hw.2.2 hw1 hz
    split
    · refine proc_inv false _ _ R (done ++ [q]) todo s (by rw [hR]; simp) (by simp [begin, hi]) ?_ ?_ hF.2.2 (by simp) (by simp)
      · simp only [begin, ho, full_append, hw']
        simp [full]
      · simp only [begin]
        rw [h0, hs]
        exact Left.fresh _ _ _
    · rename_i hk
      have hq : todo = [] := Decidable.byContradiction fun h => hk (hF.2.1 h)
      have : c.out ++ w.out = full R := by
        rw [ho, hw', hR, hq, full_append]; simp [full]
      exact ⟨by simp, by rw [← this]; exact List.prefix_refl _, fun _ => this, by simp, by simp, by simp, by simp⟩
  · exact ⟨by simp, by show c.out ++ w.out <+: _; rw [ho]; exact full_prefix hR hw.2.1, by simp, by simp, by simp, by simp, by simp⟩
  · exact ⟨by simp, by show c.out ++ w.out <+: _; rw [ho]; exact full_prefix hR hw.2.1, by simp, by simp, by simp, by simp, by simp⟩

/-- Reading the responses to the requests `done` and what is not a response behind them. -/
theorem readAll_full {i : Nat} {done : List Rq} {todo : List Rq} (hF : Fine k home index E i (done ++ todo)) {o : List UInt8} (ho : RspSpec.read o = none) (m : Nat) :
    (Spec.WebConn.readAll m (full done ++ o)).1.length = min m done.length := by
  induction done generalizing i m with
  | nil =>
    cases m with
    | zero => rfl
    | succ m => simp [full, Spec.WebConn.readAll, ho]
  | cons q done ih =>
    cases m with
    | zero => simp [Spec.WebConn.readAll]
    | succ m =>
      obtain ⟨⟨H, -, -, -, hrd, -⟩, -, hF2⟩ := hF
      obtain ⟨msg, hm⟩ := hrd (full done ++ o)
      have : full (q :: done) ++ o = whole q.hdr q.body ++ (full done ++ o) := by simp [full]
      rw [this]
      simp only [Spec.WebConn.readAll, hm, List.length_cons, ih hF2]
      omega

theorem mem_script {m : Nat} {Q : List (List (UInt8 × List UInt8))} {x : (UInt8 × List UInt8) × Nat} (h : x ∈ script m Q) : m ≤ x.2 := by
  induction Q generalizing m with
  | nil => cases h
  | cons p Q ih =>
    simp only [script, List.mem_append, List.mem_map] at h
    rcases h with ⟨y, -, rfl⟩ | h
    · exact Nat.le_refl _
    · exact Nat.le_of_succ_le (ih h)

theorem Inv.arrive {live : Bool} {R : List Rq} {b : UInt8} {bs : List UInt8} {m : Nat} {s : List ((UInt8 × List UInt8) × Nat)} {c : C} (hF : Fine k home index E 0 R)
    (h : Inv k home index E live R (((b, bs), m) :: s) c) (hm : HasRead m (sent c)) :
    Inv k home index E live R s { c with sock := c.sock ++ [(b, bs)] } := by
  have hc : live = true → c.fin = true → s = [] := fun h1 h2 => by cases h.1 h1 h2
  refine ⟨hc, ?_⟩
  replace h := h.2
  have hm' : (Spec.WebConn.readAll m (sent c)).1.length = m := hm
  dsimp only
  cases hp : c.ph with
  | req ps =>
    rw [hp] at h
    obtain ⟨done, todo, h1, h2, h3, h4⟩ := h
    refine ⟨done, todo, h1, h2, h3, ?_⟩
    cases todo with
    | nil => cases h4.2.2
    | cons q todo =>
      obtain ⟨fut, e1, e2⟩ := h4
      cases fut with
      | nil =>
        exfalso
        have hx : ((b, bs), m) ∈ script (c.i + 1) (todo.map (·.P)) := by rw [List.map_nil, List.nil_append] at e1; rw [← e1]; exact List.mem_cons_self
        have := mem_script hx
        rw [show sent c = full done ++ [] by simp only [sent, hp, h3, List.append_nil], readAll_full (h1 ▸ hF) rfl] at hm'
        simp only at this
        omega
      | cons x fut =>
        simp only [List.map_cons, List.cons_append, List.cons.injEq, Prod.mk.injEq] at e1
        obtain ⟨⟨rfl, rfl⟩, e1⟩ := e1
        exact ⟨fut, e1, by simpa only [List.append_assoc, List.singleton_append] using e2⟩
  | rsp w keep =>
    exfalso
    rw [hp] at h
    obtain ⟨-, done, q, todo, h1, h2, h3, h4, h5, h6, h7, -⟩ := h
    have := mem_script (show ((b, bs), m) ∈ script (c.i + 1) (todo.map (·.P)) by rw [← h5]; exact List.mem_cons_self)
    have hq : RspSpec.read w.out = none := by
      rw [h1] at hF
      obtain ⟨⟨H, -, -, -, hrd, -⟩, -⟩ := hF.tail
      obtain ⟨msg, hmsg⟩ := hrd []
      rw [List.append_nil] at hmsg
      exact read_short hmsg h6.2.1 (h6.1 h7).short
    rw [show sent c = full done ++ w.out by simp only [sent, hp, h3], readAll_full (h1 ▸ hF) hq] at hm'
    simp only at this
    omega
  | gone y => rw [hp] at h; exact h

theorem Inv.step {live : Bool} {R : List Rq} {s : List ((UInt8 × List UInt8) × Nat)} {c c' : C} {e : Ev} (h : Inv k home index E live R s c) (hF : Fine k home index E 0 R)
    (hS : live = true → AllSwift E 0 R) (he : e = .r ∨ e = .w ∨ (e = .timeout ∧ live = false)) (hs : step k home index E c e = some c') : Inv k home index E live R s c' := by
  have key : ∀ (w w0 : WebSend.W) (keep : Bool) (e' : WebSend.Ev), c.ph = .rsp w keep → (∀ hdr b, WebSend.Ok hdr b w → WebSend.Ok hdr b w0) →
      (WebSend.step w0 e').map (fun w' => after k home index E c w' keep) = some c' → Inv k home index E live R s c' := by
    intro w w0 keep e' hp h0 hm
    obtain ⟨w', g1, g2⟩ := Option.map_eq_some_iff.mp hm
    have h2 := h.2
    rw [hp] at h2
    obtain ⟨rfl, done, q, todo, h1, h2, h3, h4, h5, h6, h7, rfl⟩ := h2
    rw [← g2]
    have hF' : Fine k home index E c.i (q :: todo) := by rw [h1] at hF; have := hF.tail; rwa [Nat.zero_add, ← h2] at this
    exact after_inv h1 h2 h3 h4 h5 (WebSend.step_ok (h0 _ _ h6) g1) hF'
  cases hp : c.ph with
  | gone y =>
    have : c' = c := by
      rcases he with rfl | rfl | ⟨rfl, -⟩ <;> simp only [WebPlain.step, hp, Option.some.injEq] at hs <;> exact hs.symm
    rw [this]; exact h
  | rsp w keep =>
    rcases he with rfl | rfl | ⟨rfl, -⟩ <;> simp only [WebPlain.step, hp] at hs
    · exact key w { w with peek := [peek c] } keep .r hp (fun _ _ h => h) hs
    · exact key w w keep .w hp (fun _ _ h => h) hs
    · exact key w w keep .timeout hp (fun _ _ h => h) hs
  | req ps =>
    have h2 := h.2
    rw [hp] at h2
    obtain ⟨done, todo, h1, h2, h3, h4⟩ := h2
    have hF' : Fine k home index E c.i todo := by rw [h1] at hF; have := hF.tail; rwa [Nat.zero_add, ← h2] at this
    have hS' : live = true → AllSwift E c.i todo := by
      intro hl
      have := hS hl
      rw [h1] at this
      have := this.tail
      rwa [Nat.zero_add, ← h2] at this
    rcases he with rfl | rfl | ⟨rfl, rfl⟩ <;> simp only [WebPlain.step, hp] at hs
    · split at hs
      · cases hs; exact h
      · cases hs; exact proc_inv live _ _ R done todo s h1 h2 h3 h4 hF' hS' h.1
      · cases hs
    · split at hs
      · cases hs; exact h
      · cases hs
    · cases hs
      refine ⟨by simp, ?_, by simp, by simp, by simp, by simp, by simp⟩
      show c.out <+: _
      rw [h3, h1, full_append]
      exact List.prefix_append _ _

theorem play_inv {live : Bool} {R : List Rq} (hF : Fine k home index E 0 R) (hS : live = true → AllSwift E 0 R) (es : List Ev) (ht : live = true → Ev.timeout ∉ es)
    {s s' : List ((UInt8 × List UInt8) × Nat)} {c c' : C} (h : Inv k home index E live R s c) (hp : play k home index E s c es = some (s', c')) :
    Inv k home index E live R s' c' := by
  induction es generalizing s c with
  | nil => cases hp; exact h
  | cons e es ih =>
    have ht' : live = true → Ev.timeout ∉ es := fun hl hm => ht hl (List.mem_cons_of_mem _ hm)
    unfold play at hp
    split at hp
    · cases hp
    · rename_i c1 hc1
      split at hp
      · rename_i b bs b' bs' m s1
        split at hp
        · rename_i hcond
          obtain ⟨rfl, rfl, hm⟩ := hcond
          cases hc1
          exact ih ht' (h.arrive hF hm) hp
        · cases hp
      · cases hp
      · cases hp
      · rename_i s1 h1 h2 h3
        refine ih ht' ?_ hp
        cases e with
        | arrive b bs =>
          cases hs : s with
          | nil => exact (h2 b bs rfl hs).elim
          | cons x s1 => exact (h1 b bs x.1.1 x.1.2 x.2 s1 rfl hs).elim
        | close =>
          cases hs : s with
          | nil => cases hc1; exact ⟨fun _ _ => rfl, hs ▸ h.2⟩
          | cons x s1 => exact (h3 x s1 rfl hs).elim
        | r => exact h.step hF hS (.inl rfl) hc1
        | w => exact h.step hF hS (.inr (.inl rfl)) hc1
        | timeout =>
          refine h.step hF hS (.inr (.inr ⟨rfl, ?_⟩)) hc1
          cases live with
          | false => rfl
          | true => exact absurd List.mem_cons_self (ht rfl)

theorem start_inv {live : Bool} {R : List Rq} (hF : Fine k home index E 0 R) (hS : live = true → AllSwift E 0 R) (rx : List Nat) :
    Inv k home index E live R (script 0 (R.map (·.P))) (start k home index E rx []) :=
  proc_inv live _ _ R [] R _ rfl rfl rfl (Left.fresh _ _ _) hF hS (by simp [begin])

/-- After an invocation that waits for a request nothing is unread. -/
theorem proc_sock (c : C) (ps ps' : Ps) (h : (proc k home index E c ps).ph = .req ps') : (proc k home index E c ps).sock = [] := by
  fun_induction proc k home index E c ps with
  | case2 c ps hs hf => exact hs
  | case5 c ps r rest hs hr j g sock rx ha ps' hf ih => exact ih h
  | case11 c ps r rest hs hr j g sock rx ha a hf hdr body hb w hw hk ih => exact ih h
  | _ => cases h

/-- While a request is read, a report of readability continues the reading. -/
def Reads (c : C) : Prop := ∀ ps, c.ph = .req ps → c.t.rcb = some (.app 20)

theorem proc_reads (c : C) (ps : Ps) (h : c.t.rcb = some (.app 20)) : Reads (proc k home index E c ps) := by
  fun_induction proc k home index E c ps with
  | case2 c ps hs hf => exact fun _ _ => h
  | case5 c ps r rest hs hr j g sock rx ha ps' hf ih => exact ih h
  | case11 c ps r rest hs hr j g sock rx ha a hf hdr body hb w hw hk ih => exact ih rfl
  | _ => intro _ h; cases h

theorem start_reads (rx : List Nat) : Reads (start k home index E rx []) := proc_reads _ _ rfl

theorem after_reads (c : C) (w : WebSend.W) (keep : Bool) : Reads (after k home index E c w keep) := by
  unfold after
  split
  · intro _ h; cases h
  · split
    · exact proc_reads _ _ rfl
    · intro _ h; cases h
  · intro _ h; cases h
  · intro _ h; cases h

theorem step_reads {c c' : C} {e : Ev} (h : Reads c) (hs : step k home index E c e = some c') : Reads c' := by
  cases e with
  | arrive b bs => cases hs; exact h
  | close => cases hs; exact h
  | r =>
    simp only [step] at hs
    split at hs
    · cases hs; exact h
    · obtain ⟨w', -, rfl⟩ := Option.map_eq_some_iff.mp hs; exact after_reads _ _ _
    · split at hs
      · cases hs; exact h
      · cases hs; exact proc_reads _ _ (by assumption)
      · cases hs
  | w =>
    simp only [step] at hs
    split at hs
    · cases hs; exact h
    · obtain ⟨w', -, rfl⟩ := Option.map_eq_some_iff.mp hs; exact after_reads _ _ _
    · split at hs
      · cases hs; exact h
      · cases hs
  | timeout =>
    simp only [step] at hs
    split at hs
    · cases hs; exact h
    · obtain ⟨w', -, rfl⟩ := Option.map_eq_some_iff.mp hs; exact after_reads _ _ _
    · cases hs; intro _ h; cases h

/-- After a report of readability, a connection that waits for a request has nothing unread. -/
theorem step_r_sock {c c' : C} (h : Reads c) (hs : step k home index E c .r = some c') (ps : Ps) (hp : c'.ph = .req ps) : c'.sock = [] := by
  simp only [step] at hs
  split at hs
  · rename_i y hy; cases hs; rw [hy] at hp; cases hp
  · obtain ⟨w', -, rfl⟩ := Option.map_eq_some_iff.mp hs
    revert hp
    unfold after
    split
    · intro h; cases h
    · split
      · exact proc_sock _ _ _
      · intro h; cases h
    · intro h; cases h
    · intro h; cases h
  · rename_i ps0 hy
    rw [h ps0 hy] at hs
    simp only [Option.some.injEq] at hs
    rw [← hs] at hp ⊢
    exact proc_sock _ _ _ hp

theorem play_sock (es : List Ev) {s s' : List ((UInt8 × List UInt8) × Nat)} {c c' : C} (h : Reads c) (hp : play k home index E s c (es ++ [.r]) = some (s', c')) (ps : Ps)
    (hq : c'.ph = .req ps) : c'.sock = [] := by
  induction es generalizing s c with
  | nil =>
    rw [List.nil_append, play.eq_def] at hp
    dsimp only at hp
    split at hp
    · cases hp
    · rename_i c1 hc1
      simp only [play, Option.some.injEq, Prod.mk.injEq] at hp
      obtain ⟨-, rfl⟩ := hp
      exact step_r_sock h hc1 ps hq
  | cons e es ih =>
    rw [List.cons_append, play.eq_def] at hp
    dsimp only at hp
    split at hp
    · cases hp
    · rename_i c1 hc1
      have h1 := step_reads h hc1
      split at hp
      · split at hp
        · exact ih h1 hp
        · cases hp
      · cases hp
      · cases hp
      · exact ih h1 hp

end Verif.WebPlain
