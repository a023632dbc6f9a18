import Verif.Model.WebLife
/-
Property C84: memory and files of web connections, with and without TLS. `sd` tells which shutdowns of TLS have to wait.
-/
namespace Verif.WebLife

/-- These allocations succeed, every other one may fail: the response header, and the buffer and record of a further request on the same connection. -/
def Careful : Ev → Prop
  | .respond _ _ hdr => hdr = true
  | .finish keep m a _ => keep = true → m = true ∧ a = true
  | _ => True

/-- Between events: `c->data` is NULL before the first request and a record during requests. -/
def Sound (w : W) : Prop :=
  match w.phase with
  | .accepted => w.data = .null
  | .reading => ∃ r, w.data = .live r ∧ w.buf = true ∧ r.req = true ∧ r.hdr = false ∧ r.pay = false ∧ r.file = false
  | .sending => ∃ r, w.data = .live r ∧ w.buf = true ∧ r.req = true
  | .closing => w.data ≠ .dangling
  | .closed => w.data = .null ∧ w.buf = false ∧ w.ssl = false

/-- Blocks the connection still refers to, apart from bodies. -/
def held (w : W) : Nat :=
  one w.buf + one w.ssl + match w.data with
    | .live r => 1 + one r.req + one r.hdr + one r.pay
    | _ => 0

/-- Files the connection still refers to. -/
def files (w : W) : Nat :=
  match w.data with
  | .live r => one r.file
  | _ => 0

/-- A buffer is replaced sooner or later: a further request is started on the same connection, or a buffer was taken before the first one (secret mode). -/
def Ev.again : Ev → Nat
  | .finish true _ _ _ => 1
  | .early true => 1
  | _ => 0

/-- A block for a body is allocated. -/
def Ev.withBody : Ev → Nat
  | .body true => 1
  | _ => 0

/-- A buffer that `webser_start` will replace. -/
def due (w : W) : Nat := if w.phase = .accepted then one w.buf else 0

/-- From `w` to `w'` at most `n` buffers and `b` bodies are lost, and no files. -/
def Keeps (w w' : W) (n b : Nat) : Prop :=
  ∃ n' b', n' + due w' ≤ n + due w ∧ b' ≤ b ∧ w'.taken + w.given + held w = w'.given + held w' + w.taken + n' + b' ∧
    w'.opened + w.closed + files w = w'.closed + files w' + w.opened

@[local simp] theorem one_false : one false = 0 := rfl
@[local simp] theorem one_true : one true = 1 := rfl

/-- From `w` to `w'` nothing is lost, and no buffer is left that will be replaced. -/
def Same (w w' : W) : Prop :=
  due w' = 0 ∧ w'.taken + w.given + held w = w'.given + held w' + w.taken ∧ w'.opened + w.closed + files w = w'.closed + files w' + w.opened

theorem direct_good {w : W} (hd : w.data ≠ .dangling) (hc : w.phase ≠ .closed) :
    ∃ w', netFreeDirect w = .ok w' ∧ w'.phase = .closed ∧ Sound w' ∧ Same w w' := by
  obtain ⟨ph, s, b, d, t, g, o, c, sd⟩ := w
  unfold netFreeDirect
  rw [if_neg hc]
  cases d with
  | null =>
    refine ⟨_, rfl, rfl, ⟨rfl, rfl, rfl⟩, ?_, ?_, ?_⟩ <;> simp [held, files, due] <;> omega
  | live r =>
    refine ⟨_, rfl, rfl, ⟨rfl, rfl, rfl⟩, ?_, ?_, ?_⟩ <;> simp [held, files, due, release] <;> omega
  | dangling => exact absurd rfl hd

theorem netFree_good {w : W} (hd : w.data ≠ .dangling) (hc : w.phase ≠ .closed) :
    ∃ w', netFree w = .ok w' ∧ (w'.phase = .closing ∨ w'.phase = .closed) ∧ Sound w' ∧ Same w w' := by
  obtain ⟨ph, s, b, d, t, g, o, c, sd⟩ := w
  unfold netFree
  rw [if_neg hc]
  have hdir : ∀ sd', ∃ w', netFreeDirect ⟨ph, s, b, d, t, g, o, c, sd'⟩ = .ok w' ∧ (w'.phase = .closing ∨ w'.phase = .closed) ∧ Sound w' ∧
      Same ⟨ph, s, b, d, t, g, o, c, sd⟩ w' := by
    intro sd'
    obtain ⟨w', h1, h2, h3, h4⟩ := direct_good (w := ⟨ph, s, b, d, t, g, o, c, sd'⟩) hd hc
    exact ⟨w', h1, .inr h2, h3, h4⟩
  cases s with
  | false => exact hdir sd
  | true =>
    match sd with
    | [] => exact hdir []
    | false :: sd' => exact hdir sd'
    | true :: sd' =>
      refine ⟨_, rfl, .inl rfl, hd, ?_, ?_, ?_⟩ <;> simp [held, files, due] <;> omega

theorem Keeps.trans {w1 w2 w3 : W} {n m b c : Nat} (h : Keeps w1 w2 n b) (h' : Keeps w2 w3 m c) : Keeps w1 w3 (n + m) (b + c) := by
  obtain ⟨n', b', e1, e2, e3, e4⟩ := h
  obtain ⟨m', c', f1, f2, f3, f4⟩ := h'
  exact ⟨n' + m', b' + c', by omega, by omega, by omega, by omega⟩

theorem Keeps.refl (w : W) (n b : Nat) : Keeps w w n b := ⟨0, 0, by omega, by omega, by omega, by omega⟩

/-- Something is done, and then the connection is given up. -/
theorem via {w w1 : W} {n b : Nat} (n' b' : Nat) (hn : n' ≤ n + due w) (hb : b' ≤ b) (h1 : w1.taken + w.given + held w = w1.given + held w1 + w.taken + n' + b')
    (h2 : w1.opened + w.closed + files w = w1.closed + files w1 + w.opened) (hd : w1.data ≠ .dangling) (hc : w1.phase ≠ .closed) :
    ∃ w', netFree w1 = .ok w' ∧ Sound w' ∧ Keeps w w' n b := by
  obtain ⟨w', e1, -, e3, e4, e5, e6⟩ := netFree_good hd hc
  exact ⟨w', e1, e3, n', b', by omega, hb, by omega, by omega⟩

theorem step_good {w : W} (h : Sound w) (e : Ev) (hc : Careful e) : ∃ w', step w e = .ok w' ∧ Sound w' ∧ Keeps w w' e.again e.withBody := by
  have stay : ∃ w', (Except.ok w : Except Fault W) = .ok w' ∧ Sound w' ∧ Keeps w w' e.again e.withBody := ⟨w, rfl, h, Keeps.refl ..⟩
  have gone : w.data ≠ .dangling → w.phase ≠ .closed → ∃ w', netFree w = .ok w' ∧ Sound w' ∧ Keeps w w' e.again e.withBody := fun h1 h2 =>
    via 0 0 (Nat.zero_le _) (Nat.zero_le _) (by omega) (by omega) h1 h2
  obtain ⟨ph, s, b, d, t, g, o, c, sd⟩ := w
  cases ph with
  | accepted =>
    simp only [Sound] at h
    subst h
    cases e with
    | tls ok =>
      simp only [step, tls]
      split
      · exact stay
      · next hs =>
        split
        · simp only [Bool.not_eq_true] at hs
          subst hs
          refine ⟨_, rfl, rfl, 0, 0, ?_, Nat.zero_le _, ?_, ?_⟩ <;> simp [held, files, due] <;> omega
        · exact gone (by simp) (by simp)
    | early ok =>
      simp only [step, early]
      split
      · exact stay
      · next hs =>
        split
        · next ho =>
          simp only [Bool.not_eq_true] at hs
          subst hs ho
          refine ⟨_, rfl, rfl, 0, 0, ?_, Nat.zero_le _, ?_, ?_⟩ <;> simp [held, files, due, Ev.again] <;> omega
        · exact gone (by simp) (by simp)
    | start m a q =>
      simp only [step, start]
      cases m with
      | false => exact gone (by simp) (by simp)
      | true =>
        cases a with
        | false =>
          simp only [Bool.not_true, Bool.false_eq_true, if_false, Bool.not_false, if_true]
          refine via (one b) 0 ?_ (Nat.zero_le _) ?_ ?_ (by simp) (by simp) <;> simp [held, files, due, Ev.again] <;> omega
        | true =>
          cases q with
          | false =>
            simp only [Bool.not_true, Bool.false_eq_true, if_false, Bool.not_false, if_true]
            refine via (one b) 0 ?_ (Nat.zero_le _) ?_ ?_ (by simp) (by simp) <;> simp [held, files, due, Ev.again] <;> omega
          | true =>
            simp only [Bool.not_true, Bool.false_eq_true, if_false]
            refine ⟨_, rfl, ⟨_, rfl, rfl, rfl, rfl, rfl, rfl⟩, one b, 0, ?_, Nat.zero_le _, ?_, ?_⟩ <;> simp [held, files, due, Ev.again] <;> omega
    | fail => exact gone (by simp) (by simp)
    | _ => exact stay
  | reading =>
    obtain ⟨r, h1, h2, h3, h4, h5, h6⟩ := h
    simp only at h1 h2
    subst h1 h2
    obtain ⟨rq, bd, hd, py, fl⟩ := r
    simp only at h3 h4 h5 h6
    subst h3 h4 h5 h6
    cases e with
    | body ok =>
      simp only [step, body]
      split
      · exact stay
      · split
        · next ho =>
          subst ho
          refine ⟨_, rfl, ⟨_, rfl, rfl, rfl, rfl, rfl, rfl⟩, 0, 1, ?_, ?_, ?_, ?_⟩ <;> simp [held, files, due, Ev.withBody] <;> omega
        · exact gone (by simp) (by simp)
    | respond a pay hdr =>
      simp only [Careful] at hc
      subst hc
      simp only [step, respond]
      cases a with
      | api p =>
        cases p with
        | false =>
          refine ⟨_, rfl, ⟨_, rfl, rfl, rfl⟩, 0, 0, ?_, Nat.zero_le _, ?_, ?_⟩ <;> simp [held, files, due] <;> omega
        | true =>
          simp only
          split
          · refine ⟨_, rfl, ⟨_, rfl, rfl, rfl⟩, 0, 0, ?_, Nat.zero_le _, ?_, ?_⟩ <;> simp [held, files, due] <;> omega
          · exact gone (by simp) (by simp)
      | file e =>
        refine ⟨_, rfl, ⟨_, rfl, rfl, rfl⟩, 0, 0, ?_, Nat.zero_le _, ?_, ?_⟩ <;> simp [held, files, due] <;> omega
    | fail => exact gone (by simp) (by simp)
    | _ => exact stay
  | sending =>
    obtain ⟨r, h1, h2, h3⟩ := h
    simp only at h1 h2
    subst h1 h2
    obtain ⟨rq, bd, hd, py, fl⟩ := r
    simp only at h3
    subst h3
    cases e with
    | content ok =>
      simp only [step, content]
      split
      · exact stay
      · next hp =>
        simp only [Bool.not_eq_true] at hp
        subst hp
        split
        · refine ⟨_, rfl, ⟨_, rfl, rfl, rfl⟩, 0, 0, ?_, Nat.zero_le _, ?_, ?_⟩ <;> simp [held, files, due] <;> omega
        · exact gone (by simp) (by simp)
    | finish keep m a q =>
      simp only [step, finish]
      cases keep with
      | false => exact gone (by simp) (by simp)
      | true =>
        obtain ⟨rfl, rfl⟩ := hc rfl
        simp only [start, Bool.not_true, Bool.false_eq_true, if_false, if_true]
        cases q with
        | false =>
          simp only [Bool.not_false, if_true]
          refine via 1 0 ?_ (Nat.zero_le _) ?_ ?_ (by simp) (by simp) <;> simp [held, files, due, Ev.again, release] <;> omega
        | true =>
          simp only [Bool.not_true, Bool.false_eq_true, if_false]
          refine ⟨_, rfl, ⟨_, rfl, rfl, rfl, rfl, rfl, rfl⟩, 1, 0, ?_, Nat.zero_le _, ?_, ?_⟩ <;> simp [held, files, due, Ev.again, release] <;> omega
    | fail => exact gone (by simp) (by simp)
    | _ => exact stay
  | closing =>
    simp only [Sound] at h
    cases e with
    | shut => exact gone h (by simp)
    | expire =>
      obtain ⟨w', e1, -, e3, e4, e5, e6⟩ := direct_good (w := ⟨.closing, s, b, d, t, g, o, c, sd⟩) h (by simp)
      exact ⟨w', e1, e3, 0, 0, by omega, Nat.zero_le _, by omega, by omega⟩
    | _ => exact stay
  | closed =>
    cases e <;> exact stay

theorem run_good (es : List Ev) {w : W} (hs : Sound w) (h : ∀ e ∈ es, Careful e) :
    ∃ w', run w es = .ok w' ∧ Sound w' ∧ Keeps w w' (es.map Ev.again).sum (es.map Ev.withBody).sum := by
  induction es generalizing w with
  | nil => exact ⟨w, rfl, hs, Keeps.refl ..⟩
  | cons e es ih =>
    obtain ⟨w1, h1, h2, h3⟩ := step_good hs e (h e (by simp))
    obtain ⟨w', h4, h5, h6⟩ := ih h2 (fun e he => h e (by simp [he]))
    exact ⟨w', by simp only [run, List.foldlM_cons, h1]; exact h4, h5, by simpa using h3.trans h6⟩

/-- C84, except for three allocations: as long as the response header and, for a further request on the same connection, the buffer and the record can be
allocated, no history of requests, answers, errors, failing allocations and shutdowns of TLS releases anything twice or uses it after its release. -/
theorem c84_no_fault_partial (sd : List Bool) (es : List Ev) (h : ∀ e ∈ es, Careful e) : ∃ w, run (init sd) es = .ok w := by
  obtain ⟨w, h1, -⟩ := run_good es (w := init sd) rfl h
  exact ⟨w, h1⟩

/-- Case: a file is asked for over TLS and the block for its content cannot be allocated; the shutdown has to wait twice. The same without TLS; an API is asked for, the payload cannot
be allocated. -/
example : (run (init [true, true]) [.tls true, .start true true true, .respond (.file true) true true, .content false]).toOption.map
      (fun w => (w.phase, w.taken, w.given, w.opened, w.closed)) = some (.closing, 5, 0, 1, 0) ∧
    (run (init [true, true]) [.tls true, .start true true true, .respond (.file true) true true, .content false, .shut, .shut]).toOption.map
      (fun w => (w.phase, w.taken, w.given, w.opened, w.closed)) = some (.closed, 5, 5, 1, 1) ∧
    (run (init []) [.start true true true, .respond (.file true) true true, .content false]).toOption.map
      (fun w => (w.phase, w.taken, w.given, w.opened, w.closed)) = some (.closed, 4, 4, 1, 1) ∧
    (run (init []) [.start true true true, .respond (.api true) false true]).toOption.map (fun w => (w.phase, w.taken, w.given)) = some (.closed, 3, 3) ∧
    ∀ e ∈ [Ev.tls true, .start true true true, .respond (.file true) true true, .content false, .shut, .shut], Careful e := by
  refine ⟨by decide, by decide, by decide, by decide, ?_⟩
  simp [Careful]

/-- C84, for every history in which the three allocations of `c84_no_fault_partial` succeed: nothing is lost except at most one buffer for each further
request, one for the header of a tunnel client that was waited for, and one block for each body; files are never lost. So a closed connection that had one request without body, not in
secret mode, has given back everything. -/
theorem c84_lost_partial (sd : List Bool) (es : List Ev) (h : ∀ e ∈ es, Careful e) :
    ∃ w n b, run (init sd) es = .ok w ∧ n ≤ (es.map Ev.again).sum ∧ b ≤ (es.map Ev.withBody).sum ∧
      w.taken = w.given + held w + n + b ∧ w.opened = w.closed + files w ∧ (w.phase = .closed → held w = 0 ∧ files w = 0) := by
  obtain ⟨w, h1, h2, n, b, h3, h4, h5, h6⟩ := run_good es (w := init sd) rfl h
  have z1 : held (init sd) = 0 ∧ files (init sd) = 0 ∧ due (init sd) = 0 := ⟨rfl, rfl, rfl⟩
  have z3 : (init sd).given = 0 ∧ (init sd).taken = 0 ∧ (init sd).opened = 0 ∧ (init sd).closed = 0 := ⟨rfl, rfl, rfl, rfl⟩
  refine ⟨w, n, b, h1, by omega, h4, by omega, by omega, fun hp => ?_⟩
  unfold Sound at h2
  rw [hp] at h2
  simp [held, files, h2.1, h2.2.1, h2.2.2]

/-- Case: in secret mode a request with a body and another one; the buffer for the header of a tunnel client, one for the first request and the body are lost. -/
example : (run (init [true]) [.tls true, .early true, .start true true true, .body true, .respond (.api true) true true, .finish true true true true,
      .respond (.file true) true true, .content true, .finish false true true true, .expire]).toOption.map (fun w => (w.phase, w.taken, w.given, w.opened, w.closed)) =
    some (.closed, 13, 10, 1, 1) := by
  decide

/-- C84, a connection that is being closed: it is released by the timer of its shutdown whatever happened, with everything it still holds. -/
theorem c84_expires (w : W) (h : w.phase = .closing) (hd : w.data ≠ .dangling) :
    ∃ w', step w .expire = .ok w' ∧ w'.phase = .closed ∧ held w' = 0 ∧ files w' = 0 ∧ w'.given = w.given + held w ∧ w'.closed = w.closed + files w := by
  obtain ⟨w', e1, e2, e3, e4, e5, e6⟩ := direct_good hd (by rw [h]; simp)
  have hz : held w' = 0 ∧ files w' = 0 := by
    unfold Sound at e3
    rw [e2] at e3
    simp [held, files, e3.1, e3.2.1, e3.2.2]
  have ht : w'.taken = w.taken ∧ w'.opened = w.opened := by
    unfold netFreeDirect at e1
    rw [if_neg (by rw [h]; simp)] at e1
    split at e1 <;> first | (cases e1; exact ⟨rfl, rfl⟩) | cases e1
  refine ⟨w', ?_, e2, hz.1, hz.2, by omega, by omega⟩
  simp only [step, h]
  exact e1

/-- Case: a response is being sent, the client resets the connection. -/
example : ∃ w, run (init [true]) [.tls true, .start true true true, .respond (.file true) true true, .content true, .fail] = .ok w ∧ w.phase = .closing ∧ held w = 6 ∧ files w = 1 ∧
    ∃ w', step w .expire = .ok w' ∧ w'.phase = .closed ∧ held w' = 0 ∧ files w' = 0 ∧ w'.given = w.given + held w ∧ w'.closed = w.closed + files w :=
  ⟨_, rfl, rfl, rfl, rfl, c84_expires _ rfl (by simp)⟩

/-- One request and its answer; all allocations succeed. -/
structure Round where
  withBody : Bool
  answer : Answer
deriving Repr, DecidableEq

/-- The events of one. -/
def Round.events (r : Round) : List Ev :=
  (if r.withBody then [.body true] else []) ++ [.respond r.answer true true] ++
    (match r.answer with | .file true => [.content true] | _ => [])

/-- A connection is opened, with or without TLS, in secret mode or not. -/
def opening (tls secret : Bool) : List Ev := (if tls then [.tls true] else []) ++ (if secret then [.early true] else []) ++ [.start true true true]

/-- A connection on which the requests `rs` and then `last` are made, after which it is closed; if the shutdown has to wait, its timer ends it. -/
def visit (tls secret : Bool) (rs : List Round) (last : Round) : List Ev :=
  opening tls secret ++ rs.flatMap (fun r => r.events ++ [.finish true true true true]) ++ last.events ++ [.finish false true true true, .expire]

theorem run_append (w : W) (a b : List Ev) : run w (a ++ b) = (run w a).bind (fun w => run w b) := by
  simp only [run, List.foldlM_append]
  rfl

/-- What one request adds: blocks taken, and given back when the record is released. -/
theorem round_run (r : Round) (s : Bool) (t g o c : Nat) (sd : List Bool) :
    ∃ x y, run ⟨.reading, s, true, .live { req := true }, t, g, o, c, sd⟩ r.events =
      .ok ⟨.sending, s, true, .live { req := true, body := r.withBody, hdr := true, pay := x, file := y }, t + 1 + one r.withBody + one x, g, o + one y, c, sd⟩ := by
  obtain ⟨b, a⟩ := r
  cases b <;> (cases a with | api p => cases p <;> exact ⟨_, _, rfl⟩ | file e => cases e <;> exact ⟨_, _, rfl⟩)

theorem opening_run (tls secret : Bool) (sd : List Bool) :
    run (init sd) (opening tls secret) = .ok ⟨.reading, tls, true, .live { req := true }, 3 + one tls + one secret, 0, 0, 0, sd⟩ := by
  cases tls <;> cases secret <;> rfl

/-- C84, for connections without keep-alive and bodies, not in secret mode: what was allocated for the connection has been given back when it is closed, and
a file that was opened has been closed. In general one buffer for each further request, one block for each body and one buffer in secret mode are lost: this is the exact number. -/
theorem c84_balance_partial (tls secret : Bool) (sd : List Bool) (rs : List Round) (last : Round) :
    ∃ w, run (init sd) (visit tls secret rs last) = .ok w ∧ w.phase = .closed ∧ w.opened = w.closed ∧
      w.taken = w.given + rs.length + ((rs ++ [last]).filter (·.withBody)).length + one secret := by
  have key : ∀ (rs : List Round) (t g o n : Nat), t = g + 3 + n →
      ∃ t' g' o', run ⟨.reading, tls, true, .live { req := true }, t, g, o, o, sd⟩ (rs.flatMap (fun r => r.events ++ [.finish true true true true])) =
        .ok ⟨.reading, tls, true, .live { req := true }, t', g', o', o', sd⟩ ∧ t' = g' + 3 + n + rs.length + (rs.filter (·.withBody)).length := by
    intro rs
    induction rs with
    | nil => intro t g o n h; exact ⟨t, g, o, rfl, by simpa using h⟩
    | cons r rs ih =>
      intro t g o n h
      obtain ⟨x, y, hr⟩ := round_run r tls t g o o sd
      obtain ⟨t', g', o', h1, h2⟩ := ih (t + 1 + one r.withBody + one x + 1 + 1 + 1) (g + one true + one true + one x + 1) (o + one y) (n + 1 + one r.withBody) (by
        simp; omega)
      refine ⟨t', g', o', ?_, ?_⟩
      · rw [List.flatMap_cons, run_append, run_append, hr]
        exact h1
      · rw [h2]
        cases hb : r.withBody <;> simp [hb] <;> omega
  obtain ⟨t', g', o', h1, h2⟩ := key rs (3 + one tls + one secret) 0 0 (one tls + one secret) (by omega)
  obtain ⟨x, y, h3⟩ := round_run last tls t' g' o' o' sd
  have hend : ∃ sd', run ⟨.sending, tls, true, .live { req := true, body := last.withBody, hdr := true, pay := x, file := y }, t' + 1 + one last.withBody + one x, g', o' + one y, o', sd⟩
      [.finish false true true true, .expire] =
      .ok ⟨.closed, false, false, .null, t' + 1 + one last.withBody + one x, g' + one true + one true + one x + 1 + one true + one tls, o' + one y, o' + one y, sd'⟩ := by
    cases tls with
    | false => exact ⟨_, rfl⟩
    | true =>
      match sd with
      | [] => exact ⟨_, rfl⟩
      | false :: sd' => exact ⟨_, rfl⟩
      | true :: sd' => exact ⟨_, rfl⟩
  obtain ⟨sd', hend⟩ := hend
  refine ⟨⟨.closed, false, false, .null, t' + 1 + one last.withBody + one x, g' + one true + one true + one x + 1 + one true + one tls, o' + one y, o' + one y, sd'⟩,
    ?_, rfl, rfl, ?_⟩
  · unfold visit
    rw [run_append, run_append, run_append, opening_run]
    show Except.bind (Except.bind (run _ _) _) _ = _
    rw [h1]
    show Except.bind (run _ _) _ = _
    rw [h3]
    exact hend
  · show t' + 1 + one last.withBody + one x = _
    rw [h2, List.filter_append, List.length_append]
    cases hb : last.withBody <;> simp [hb] <;> omega

/-- A case: two further requests, one with a body, and a file; over TLS in secret mode, where the shutdown has to wait. -/
example : visit true true [⟨true, .api true⟩, ⟨false, .file true⟩] ⟨false, .api true⟩ =
      [.tls true, .early true, .start true true true, .body true, .respond (.api true) true true, .finish true true true true, .respond (.file true) true true, .content true,
        .finish true true true true, .respond (.api true) true true, .finish false true true true, .expire] ∧
    (run (init [true]) (visit true true [⟨true, .api true⟩, ⟨false, .file true⟩] ⟨false, .api true⟩)).toOption.map (fun w => (w.taken, w.given, w.opened, w.closed)) =
      some (18, 14, 1, 1) := by
  decide

/-- C84 is false when no block is left for the response header, unless the shutdown of TLS has to wait: the connection is released twice. -/
theorem c84_header_counterexample (tls secret b : Bool) (sd : List Bool) (a : Answer) (es : List Ev) (h : tls = true → sd.head? ≠ some true) :
    run (init sd) (opening tls secret ++ (if b then [.body true] else []) ++ [.respond a true false] ++ es) = .error .doubleFree := by
  cases tls with
  | false => cases secret <;> cases b <;> (cases a with | api p => cases p <;> rfl | file e => cases e <;> rfl)
  | true =>
    match sd with
    | [] => cases secret <;> cases b <;> (cases a with | api p => cases p <;> rfl | file e => cases e <;> rfl)
    | false :: sd => cases secret <;> cases b <;> (cases a with | api p => cases p <;> rfl | file e => cases e <;> rfl)
    | true :: sd => exact absurd rfl (h rfl)

/-- Case: a file is asked for, without TLS, and over TLS from a client that has closed its side. -/
example : run (init []) [.start true true true, .respond (.file true) true false] = .error .doubleFree ∧
    run (init [false]) [.tls true, .start true true true, .respond (.file true) true false] = .error .doubleFree :=
  ⟨c84_header_counterexample false false false [] (.file true) [] (by simp), c84_header_counterexample true false false [false] (.file true) [] (by simp)⟩

/-- C84, the same when the shutdown of TLS has to wait: the connection is given up a second time while it is being closed, which does no harm. -/
theorem c84_header_waits (secret b : Bool) (sd : List Bool) (a : Answer) :
    ∃ w, run (init (true :: sd)) (opening true secret ++ (if b then [.body true] else []) ++ [.respond a true false, .expire]) = .ok w ∧ w.phase = .closed ∧
      w.opened = w.closed ∧ w.taken = w.given + one b + one secret := by
  match sd with
  | [] => cases secret <;> cases b <;> (cases a with | api p => cases p <;> exact ⟨_, rfl, rfl, rfl, rfl⟩ | file e => cases e <;> exact ⟨_, rfl, rfl, rfl, rfl⟩)
  | false :: sd => cases secret <;> cases b <;> (cases a with | api p => cases p <;> exact ⟨_, rfl, rfl, rfl, rfl⟩ | file e => cases e <;> exact ⟨_, rfl, rfl, rfl, rfl⟩)
  | true :: sd => cases secret <;> cases b <;> (cases a with | api p => cases p <;> exact ⟨_, rfl, rfl, rfl, rfl⟩ | file e => cases e <;> exact ⟨_, rfl, rfl, rfl, rfl⟩)

/-- Case: a file is asked for. -/
example : (run (init [true, true]) [.tls true, .start true true true, .respond (.file true) true false, .expire]).toOption.map
    (fun w => (w.phase, w.taken, w.given, w.opened, w.closed)) = some (.closed, 4, 4, 1, 1) := by
  decide

/-- C84 is false when no buffer or record can be allocated for a further request: the record of the previous request is used after its release, at once or when the shutdown is over. -/
theorem c84_keepalive_counterexample (tls secret : Bool) (sd : List Bool) (r : Round) (m a q : Bool) (h : m = false ∨ a = false) (es : List Ev) :
    run (init sd) (opening tls secret ++ r.events ++ [.finish true m a q, .expire] ++ es) = .error .useAfterFree := by
  obtain ⟨x, y, h3⟩ := round_run r tls (3 + one tls + one secret) 0 0 0 sd
  rw [run_append, run_append, run_append, opening_run]
  show Except.bind (Except.bind (run _ _) _) _ = _
  rw [h3]
  cases tls with
  | false => cases m <;> cases a <;> first | rfl | simp at h
  | true =>
    match sd with
    | [] => cases m <;> cases a <;> first | rfl | simp at h
    | false :: sd => cases m <;> cases a <;> first | rfl | simp at h
    | true :: sd => cases m <;> cases a <;> first | rfl | simp at h

/-- Case: after an API call with a body there is no block for the next request. -/
example : run (init []) ([.start true true true] ++ Round.events ⟨true, .api true⟩ ++ [.finish true false true true, .expire]) = .error .useAfterFree ∧
    run (init [true]) ([.tls true, .start true true true] ++ Round.events ⟨true, .api true⟩ ++ [.finish true false true true, .expire]) = .error .useAfterFree := by
  have h1 := c84_keepalive_counterexample false false [] ⟨true, .api true⟩ false true true (.inl rfl) []
  have h2 := c84_keepalive_counterexample true false [true] ⟨true, .api true⟩ false true true (.inl rfl) []
  exact ⟨h1, h2⟩

/-- C84 is false for a request with a body, and in secret mode for every request: its block, or the first buffer, is never given back, even without keep-alive. -/
theorem c84_body_counterexample (tls : Bool) (sd : List Bool) (a : Answer) :
    (∃ w, run (init sd) (visit tls false [] ⟨true, a⟩) = .ok w ∧ w.phase = .closed ∧ w.taken = w.given + 1) ∧
    (∃ w, run (init sd) (visit tls true [] ⟨false, a⟩) = .ok w ∧ w.phase = .closed ∧ w.taken = w.given + 1) := by
  obtain ⟨w, h1, h2, -, h4⟩ := c84_balance_partial tls false sd [] ⟨true, a⟩
  obtain ⟨w', h1', h2', -, h4'⟩ := c84_balance_partial tls true sd [] ⟨false, a⟩
  exact ⟨⟨w, h1, h2, by simpa using h4⟩, ⟨w', h1', h2', by simpa using h4'⟩⟩

/-- Case: a file is posted to; a file is asked for in secret mode. -/
example : (∃ w, run (init []) (visit false false [] ⟨true, .file true⟩) = .ok w ∧ w.phase = .closed ∧ w.taken = w.given + 1) ∧
    (∃ w, run (init [true]) (visit true true [] ⟨false, .file true⟩) = .ok w ∧ w.phase = .closed ∧ w.taken = w.given + 1) :=
  ⟨(c84_body_counterexample false [] (.file true)).1, (c84_body_counterexample true [true] (.file true)).2⟩

end Verif.WebLife
