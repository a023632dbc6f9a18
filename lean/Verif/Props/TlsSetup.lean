import Verif.Model.TlsSetup
import Mathlib.Data.List.Perm.Basic
/-
C98: every TLS connection is set up with the configured certificate and limits, and its peer is the one meant.
-/
namespace Verif.TlsSetup

/-- All calls succeed; the certificate is 5 and the key 6, and they belong together. -/
def good : Res where
  pool := true
  ctxNew := true
  min12 := true
  max13 := true
  ciphers := true
  suites := true
  ctxCert := some 5
  ctxKey := some 6
  sslNew := true
  cert := some 5
  key := some 6
  check := fun c k => k == c + 1
  setFd := true
  exData := true

/-- **C98 (certificate)**: a server connection always carries the certificate and the key that were read from the files when it was created, checked to
belong together, and belongs to the socket it was made for; whatever happened before. -/
theorem c98_certificate (w : World) (fd : Nat) (r : Res) (t : Tls) (h : (create .server fd r w).2 = some t) :
    ∃ x k, r.cert = some x ∧ r.key = some k ∧ r.check x k = true ∧ t.cert = some x ∧ t.key = some k ∧ t.state = .server ∧ t.fd = fd := by
  unfold create at h
  split at h
  · simp at h
  · dsimp only at h
    split at h
    · simp at h
    · split at h
      · simp at h
      · rename_i c _ _ _ _ _ hc
        unfold loadCon at hc
        split at hc
        · simp at hc
        · split at hc
          · rename_i he; cases he
          · split at hc
            · split at hc
              · rename_i x k hx hk hck
                simp only [Prod.mk.injEq, Option.some.injEq] at hc
                obtain ⟨-, -, rfl, rfl⟩ := hc
                split at h
                · simp at h
                · split at h
                  · simp at h
                  · simp only [Option.some.injEq] at h
                    subst h
                    exact ⟨x, k, hx, hk, hck, rfl, rfl, rfl, rfl⟩
              · simp at hc
            · simp at hc

/-- A case: after another connection that was made with certificate 5 the files hold certificate 7. -/
example : ((create .server 4 { good with cert := some 7, key := some 8 } (create .server 3 good {}).1).2.map fun t => (t.cert, t.key, t.fd)) =
    some (some 7, some 8, 4) := by decide

/-- Server contexts are complete, and so are client contexts. -/
def Full (w : World) : Prop :=
  (∀ c, w.server = some c → c.set = ⟨true, true, true, true, false⟩) ∧ (∀ c, w.client = some c → c.set = ⟨true, true, false, false, false⟩)

/-- The settings calls succeed. -/
def Set (r : Res) : Prop := r.min12 = true ∧ r.max13 = true ∧ r.ciphers = true ∧ r.suites = true

theorem create_full (w : World) (side : Side) (fd : Nat) (r : Res) (hr : Set r) (hw : Full w) :
    Full (create side fd r w).1 ∧ ∀ t, (create side fd r w).2 = some t →
      t.set = (if side = .server then ⟨true, true, true, true, false⟩ else ⟨true, true, false, false, false⟩) := by
  obtain ⟨h1, h2, h3, h4⟩ := hr
  obtain ⟨hs, hc⟩ := hw
  have hload : ∀ w0 : World, Full w0 → Full (loadCtx side r w0).1 ∧ ∀ c, (loadCtx side r w0).2 = some c →
      c.set = (if side = .server then ⟨true, true, true, true, false⟩ else ⟨true, true, false, false, false⟩) := by
    intro w0 ⟨a, b⟩
    cases side with
    | client =>
      simp only [loadCtx, loadClient, h1, h2]
      split
      · rename_i c hcl
        exact ⟨⟨a, b⟩, by intro c' h'; simp at h'; subst h'; simpa using b _ hcl⟩
      · split
        · exact ⟨⟨a, b⟩, by simp⟩
        · refine ⟨⟨a, ?_⟩, ?_⟩ <;> simp
    | server =>
      simp only [loadCtx, loadServer, h1, h2, h3, h4]
      split
      · rename_i c hcl
        exact ⟨⟨a, b⟩, by intro c' h'; simp at h'; subst h'; simpa using a _ hcl⟩
      · split
        · exact ⟨⟨a, b⟩, by simp⟩
        · simp only [Bool.not_true, Bool.false_eq_true, if_false]
          split
          · split
            · exact ⟨⟨by simp, b⟩, by simp⟩
            · exact ⟨⟨by simp, b⟩, by simp⟩
          · exact ⟨⟨by simp, b⟩, by simp⟩
  have hcon : ∀ (c : Ctx) (w0 : World), Full w0 → Full (loadCon c side r w0).1 := by
    intro c w0 ⟨a, b⟩
    unfold loadCon
    split
    · exact ⟨a, b⟩
    · split
      · exact ⟨a, b⟩
      · split
        · split <;> exact ⟨a, b⟩
        · exact ⟨a, b⟩
  unfold create
  split
  · exact ⟨⟨hs, hc⟩, by simp⟩
  · obtain ⟨f1, f2⟩ := hload { w with next := w.next + 1, recs := w.next :: w.recs } ⟨hs, hc⟩
    dsimp only
    split
    · rename_i w1 he
      rw [he] at f1
      exact ⟨f1, by simp⟩
    · rename_i w1 c he
      rw [he] at f1 f2
      have f3 := hcon c w1 f1
      split
      · rename_i w2 he2
        rw [he2] at f3
        exact ⟨f3, by simp⟩
      · rename_i w2 m x k he2
        rw [he2] at f3
        split
        · exact ⟨f3, by simp⟩
        · split
          · exact ⟨f3, by simp⟩
          · exact ⟨f3, by intro t ht; simp at ht; subst ht; exact f2 c rfl⟩

theorem create_state (w : World) (side : Side) (fd : Nat) (r : Res) (t : Tls) (h : (create side fd r w).2 = some t) : t.state = side := by
  unfold create at h
  split at h
  · simp at h
  · dsimp only at h
    split at h
    · simp at h
    · split at h
      · simp at h
      · split at h
        · simp at h
        · split at h
          · simp at h
          · simp at h; subst h; rfl

/-- **C98 (limits, partial)**: as long as the calls that limit versions and ciphers succeed, every server connection accepts TLS 1.2 and 1.3 with the listed
ciphers only, and every client connection TLS 1.2 and 1.3 only. (If one of them fails once: `c98_server_counterexample`, `c98_client_counterexample`.) -/
theorem c98_limits_partial (ops : List Op) (h : ∀ side fd r, Op.create side fd r ∈ ops → r.min12 = true ∧ r.max13 = true ∧ r.ciphers = true ∧ r.suites = true)
    (t : Tls) (ht : t ∈ (run ops).2) :
    t.set.min12 = true ∧ t.set.max13 = true ∧ (t.state = .server → t.set.ciphers = true ∧ t.set.suites = true) := by
  have : ∀ (ops : List Op) (s : World × List Tls), Full s.1 → 
      (∀ t ∈ s.2, t.set = (if t.state = .server then ⟨true, true, true, true, false⟩ else ⟨true, true, false, false, false⟩)) →
      (∀ side fd r, Op.create side fd r ∈ ops → Set r) →
      ∀ t ∈ (ops.foldl step s).2, t.set = (if t.state = .server then ⟨true, true, true, true, false⟩ else ⟨true, true, false, false, false⟩) := by
    intro ops
    induction ops with
    | nil => intro s _ h _; simpa using h
    | cons op ops ih =>
      intro s h1 h2 h3
      refine ih (step s op) ?_ ?_ (fun side fd r hm => h3 side fd r (by simp [hm]))
      · cases op with
        | create side fd r =>
          obtain ⟨g1, g2⟩ := create_full s.1 side fd r (h3 side fd r (by simp)) h1
          simp only [step]
          split <;> rename_i he <;> rw [he] at g1 <;> exact g1
        | release i =>
          simp only [step]
          split
          · exact h1
          · exact h1
      · cases op with
        | create side fd r =>
          obtain ⟨g1, g2⟩ := create_full s.1 side fd r (h3 side fd r (by simp)) h1
          have g3 := create_state s.1 side fd r
          simp only [step]
          split
          · exact h2
          · rename_i w t he
            rw [he] at g2 g3
            intro t' ht'
            simp only [List.mem_append, List.mem_cons, List.not_mem_nil, or_false] at ht'
            rcases ht' with ht' | rfl
            · exact h2 t' ht'
            · rw [g2 _ rfl, g3 _ rfl]
        | release i =>
          simp only [step]
          split
          · exact h2
          · intro t' ht'
            exact h2 t' ((List.eraseIdx_sublist _ _).subset ht')
  have e := this ops ({}, []) ⟨by simp, by simp⟩ (by simp) h t ht
  rw [e]
  by_cases hs : t.state = .server <;> simp [hs]

/-- A case: a server and a client connection, one failed certificate between them. -/
example : ((run [.create .server 3 good, .create .server 4 { good with cert := none }, .create .client 5 good]).2.map fun t => (t.state, t.set)) =
    [(.server, ⟨true, true, true, true, false⟩), (.client, ⟨true, true, false, false, false⟩)] := by decide

/-- **C98 is false when a setting fails once**: if the worker has no server context yet and the call that sets the lowest version fails, the connection is
refused, but the context stays. From then on every server connection is created without any limit of versions and ciphers, as far as its certificate can be
loaded. -/
theorem c98_server_counterexample (w : World) (hw : w.server = none) (fd fd' : Nat) (r r' : Res) (hp : r.pool = true) (hn : r.ctxNew = true)
    (hm : r.min12 = false) (hp' : r'.pool = true) (hn' : r'.sslNew = true) (x k : Nat) (hx : r'.cert = some x) (hk : r'.key = some k)
    (hc : r'.check x k = true) (hf : r'.setFd = true) (he : r'.exData = true) :
    (create .server fd r w).2 = none ∧
      ∃ t, (create .server fd' r' (create .server fd r w).1).2 = some t ∧ t.set = ⟨false, false, false, false, false⟩ := by
  simp [create, hp, loadCtx, loadServer, hw, hn, hm, freeRec, hp', loadCon, hn', hx, hk, hc, hf, he]

example : ((create .server 4 good (create .server 3 { good with min12 := false } {}).1).2.map (·.set)) = some {} := by decide

/-- Likewise for clients. -/
theorem c98_client_counterexample (w : World) (hw : w.client = none) (fd fd' : Nat) (r r' : Res) (hp : r.pool = true) (hn : r.ctxNew = true)
    (hm : r.min12 = false) (hp' : r'.pool = true) (hn' : r'.sslNew = true) (hf : r'.setFd = true) (he : r'.exData = true) :
    (create .client fd r w).2 = none ∧
      ∃ t, (create .client fd' r' (create .client fd r w).1).2 = some t ∧ t.set = ⟨false, false, false, false, false⟩ := by
  simp [create, hp, loadCtx, loadClient, hw, hn, hm, freeRec, hp', loadCon, hn', hf, he]

example : ((create .client 4 good (create .client 3 { good with min12 := false } {}).1).2.map (·.set)) = some {} := by decide

/-! ### The peer -/

/-- No context verifies. -/
def Lax (w : World) : Prop := (∀ c, w.server = some c → c.set.verify = false) ∧ (∀ c, w.client = some c → c.set.verify = false)

theorem create_lax (w : World) (side : Side) (fd : Nat) (r : Res) (hw : Lax w) :
    Lax (create side fd r w).1 ∧ ∀ t, (create side fd r w).2 = some t → t.set.verify = false := by
  have hload : ∀ w0 : World, Lax w0 → Lax (loadCtx side r w0).1 ∧ ∀ c, (loadCtx side r w0).2 = some c → c.set.verify = false := by
    intro w0 ⟨a, b⟩
    cases side with
    | client =>
      simp only [loadCtx, loadClient]
      repeat' split
      all_goals first
        | (rename_i c hcl; exact ⟨⟨a, b⟩, by intro c' h'; simp at h'; subst h'; exact b _ hcl⟩)
        | exact ⟨⟨a, b⟩, by simp⟩
        | exact ⟨⟨a, by simp⟩, by simp⟩
    | server =>
      simp only [loadCtx, loadServer]
      repeat' split
      all_goals first
        | (rename_i c hcl; exact ⟨⟨a, b⟩, by intro c' h'; simp at h'; subst h'; exact a _ hcl⟩)
        | exact ⟨⟨a, b⟩, by simp⟩
        | exact ⟨⟨by simp, b⟩, by simp⟩
  have hcon : ∀ (c : Ctx) (w0 : World), Lax w0 → Lax (loadCon c side r w0).1 := by
    intro c w0 ⟨a, b⟩
    unfold loadCon
    repeat' split
    all_goals exact ⟨a, b⟩
  unfold create
  split
  · exact ⟨hw, by simp⟩
  · obtain ⟨f1, f2⟩ := hload { w with next := w.next + 1, recs := w.next :: w.recs } hw
    dsimp only
    split
    · rename_i w1 he
      rw [he] at f1
      exact ⟨f1, by simp⟩
    · rename_i w1 c he
      rw [he] at f1 f2
      have f3 := hcon c w1 f1
      split
      · rename_i w2 he2
        rw [he2] at f3
        exact ⟨f3, by simp⟩
      · rename_i w2 m x k he2
        rw [he2] at f3
        split
        · exact ⟨f3, by simp⟩
        · split
          · exact ⟨f3, by simp⟩
          · exact ⟨f3, by intro t ht; simp at ht; subst ht; exact f2 c rfl⟩

/-- **C98 is false as to the peer**: after every history, every connection (in particular every connection of the tunnel client, which then sends the secret
key over it) goes on with any certificate, valid or not. -/
theorem c98_peer_counterexample (ops : List Op) (t : Tls) (ht : t ∈ (run ops).2) (valid : Bool) : goesOn t valid = true := by
  have : ∀ (ops : List Op) (s : World × List Tls), Lax s.1 → (∀ t ∈ s.2, t.set.verify = false) → ∀ t ∈ (ops.foldl step s).2, t.set.verify = false := by
    intro ops
    induction ops with
    | nil => intro s _ h; simpa using h
    | cons op ops ih =>
      intro s h1 h2
      cases op with
      | create side fd r =>
        obtain ⟨g1, g2⟩ := create_lax s.1 side fd r h1
        refine ih (step s _) ?_ ?_
        · simp only [step]
          split <;> rename_i he <;> rw [he] at g1 <;> exact g1
        · simp only [step]
          split
          · exact h2
          · rename_i w t he
            rw [he] at g2
            intro t' ht'
            simp only [List.mem_append, List.mem_cons, List.not_mem_nil, or_false] at ht'
            rcases ht' with ht' | rfl
            · exact h2 t' ht'
            · exact g2 _ rfl
      | release i =>
        refine ih (step s _) ?_ ?_
        · simp only [step]
          split <;> exact h1
        · simp only [step]
          split
          · exact h2
          · intro t' ht'
            exact h2 t' ((List.eraseIdx_sublist _ _).subset ht')
  simp [goesOn, this ops ({}, []) ⟨by simp, by simp⟩ (by simp) t ht]

example : ((run [.create .client 3 good]).2.map fun t => goesOn t false) = [true] := by decide

/-! ### Whose certificate -/

/-- The client's context has no certificate; the server's has none, or one that goes with its key. -/
def Paired (pair : Nat → Nat → Bool) (w : World) : Prop :=
  (∀ c, w.client = some c → c.cert = none ∧ c.key = none) ∧
  (∀ c, w.server = some c → (c.cert = none ∧ c.key = none) ∨ ∃ x k, c.cert = some x ∧ c.key = some k ∧ pair x k = true)

theorem create_paired (pair : Nat → Nat → Bool) (w : World) (side : Side) (fd : Nat) (r : Res) (hr : r.check = pair) (hw : Paired pair w) :
    Paired pair (create side fd r w).1 ∧ ∀ t, (create side fd r w).2 = some t → t.state = .client → t.cert = none ∧ t.key = none := by
  subst hr
  have hload : ∀ w0 : World, Paired r.check w0 → Paired r.check (loadCtx side r w0).1 ∧
      ∀ c, (loadCtx side r w0).2 = some c → side = .client → c.cert = none ∧ c.key = none := by
    intro w0 ⟨a, b⟩
    cases side with
    | client =>
      simp only [loadCtx, loadClient]
      repeat' split
      all_goals first
        | (rename_i c hcl; exact ⟨⟨a, b⟩, by intro c' h' _; simp at h'; subst h'; exact a _ hcl⟩)
        | exact ⟨⟨a, b⟩, by simp⟩
        | exact ⟨⟨by simp, b⟩, by simp⟩
    | server =>
      refine ⟨?_, fun c _ h => by cases h⟩
      simp only [loadCtx, loadServer]
      repeat' split
      all_goals first
        | exact ⟨a, b⟩
        | (rename_i hck; exact ⟨a, fun c hc => by cases hc; exact .inr ⟨_, _, rfl, rfl, hck⟩⟩)
        | exact ⟨a, by simp⟩
  have hcon : ∀ (c : Ctx) (w0 : World), Paired r.check w0 → Paired r.check (loadCon c side r w0).1 ∧
      (side = .client → ∀ m x k, (loadCon c side r w0).2 = some (m, x, k) → x = c.cert ∧ k = c.key) := by
    intro c w0 ⟨a, b⟩
    unfold loadCon
    cases side with
    | client =>
      split
      · exact ⟨⟨a, b⟩, by simp⟩
      · exact ⟨⟨a, b⟩, by simp +contextual⟩
    | server =>
      refine ⟨?_, fun h => by cases h⟩
      repeat' split
      all_goals exact ⟨a, b⟩
  unfold create
  split
  · exact ⟨hw, by simp⟩
  · obtain ⟨f1, f2⟩ := hload { w with next := w.next + 1, recs := w.next :: w.recs } hw
    dsimp only
    split
    · rename_i w1 he
      rw [he] at f1
      exact ⟨f1, by simp⟩
    · rename_i w1 c he
      rw [he] at f1 f2
      obtain ⟨f3, f4⟩ := hcon c w1 f1
      split
      · rename_i w2 he2
        rw [he2] at f3
        exact ⟨f3, by simp⟩
      · rename_i w2 m x k he2
        rw [he2] at f3 f4
        split
        · exact ⟨f3, by simp⟩
        · split
          · exact ⟨f3, by simp⟩
          · refine ⟨f3, ?_⟩
            intro t ht hs
            simp only [Option.some.injEq] at ht
            subst ht
            obtain ⟨rfl, rfl⟩ := f4 hs m x k rfl
            exact f2 c rfl hs

/-- **C98 (whose certificate)**: after every history, no connection that this program makes to another server carries a certificate or key, and the
server's context, if it has a key, has the certificate that goes with it. -/
theorem c98_own (pair : Nat → Nat → Bool) (ops : List Op) (h : ∀ side fd r, Op.create side fd r ∈ ops → r.check = pair) :
    (∀ t ∈ (run ops).2, t.state = .client → t.cert = none ∧ t.key = none) ∧
    (∀ c, (run ops).1.server = some c → (c.cert = none ∧ c.key = none) ∨ ∃ x k, c.cert = some x ∧ c.key = some k ∧ pair x k = true) := by
  have : ∀ (ops : List Op) (s : World × List Tls), Paired pair s.1 → (∀ t ∈ s.2, t.state = .client → t.cert = none ∧ t.key = none) →
      (∀ side fd r, Op.create side fd r ∈ ops → r.check = pair) →
      Paired pair (ops.foldl step s).1 ∧ ∀ t ∈ (ops.foldl step s).2, t.state = .client → t.cert = none ∧ t.key = none := by
    intro ops
    induction ops with
    | nil => intro s h1 h2 _; exact ⟨h1, h2⟩
    | cons op ops ih =>
      intro s h1 h2 h3
      have h3' : ∀ side fd r, Op.create side fd r ∈ ops → r.check = pair := fun a b c hm => h3 a b c (List.mem_cons_of_mem _ hm)
      cases op with
      | create side fd r =>
        obtain ⟨g1, g2⟩ := create_paired pair s.1 side fd r (h3 _ _ _ (List.mem_cons_self ..)) h1
        refine ih (step s _) ?_ ?_ h3'
        · simp only [step]
          split <;> rename_i he <;> rw [he] at g1 <;> exact g1
        · simp only [step]
          split
          · exact h2
          · rename_i w t he
            rw [he] at g2
            intro t' ht'
            simp only [List.mem_append, List.mem_cons, List.not_mem_nil, or_false] at ht'
            rcases ht' with ht' | rfl
            · exact h2 t' ht'
            · exact g2 _ rfl
      | release i =>
        refine ih (step s _) ?_ ?_ h3'
        · simp only [step]
          split <;> exact h1
        · simp only [step]
          split
          · exact h2
          · intro t' ht'
            exact h2 t' ((List.eraseIdx_sublist _ _).subset ht')
  obtain ⟨⟨_, h1⟩, h2⟩ := this ops ({}, []) ⟨by simp, by simp⟩ (by simp) h
  exact ⟨h2, h1⟩

/-- A case: a server's and a client's connection; the first carries the certificate 5 and the key 6, the second nothing. -/
example : (run [.create .server 3 good, .create .client 4 good]).2.map (fun t => (t.cert, t.key)) = [(some 5, some 6), (none, none)] ∧
    (run [.create .server 3 good, .create .client 4 good]).1.server.map (fun c => (c.cert, c.key)) = some (some 5, some 6) := by decide

/-! ### What is allocated -/

/-- The cached contexts. -/
def cached (w : World) : List Nat := (w.client.map (·.id)).toList ++ (w.server.map (·.id)).toList

/-- The contexts that are allocated are the cached ones, with different numbers below `next`. -/
structure CtxOk (w : World) : Prop where
  ctxs : w.ctxs.Perm (cached w)
  nd : w.ctxs.Nodup
  lt : ∀ n ∈ w.ctxs, n < w.next

theorem loadCtx_ok {w : World} (side : Side) (r : Res) (h : CtxOk w) (hf : w.fault = false) :
    CtxOk (loadCtx side r w).1 ∧ (loadCtx side r w).1.fault = false ∧ (loadCtx side r w).1.recs = w.recs ∧ (loadCtx side r w).1.ssls = w.ssls ∧
      w.next ≤ (loadCtx side r w).1.next := by
  obtain ⟨h1, h2, h3⟩ := h
  have hnew : w.next ∉ w.ctxs := fun hm => by have := h3 _ hm; omega
  cases side with
  | client =>
    have add : ∀ c : Ctx, c.id = w.next → w.client = none →
        CtxOk { w with next := w.next + 1, ctxs := w.next :: w.ctxs, client := some c } := by
      intro c hc hn
      refine ⟨?_, ?_, ?_⟩
      · simp only [cached, hn] at h1 ⊢
        simp only [Option.map_some, Option.toList_some, hc, List.cons_append, List.nil_append]
        exact h1.cons _
      · simp [hnew, h2]
      · intro n hn
        simp only [List.mem_cons] at hn
        rcases hn with rfl | hn
        · simp
        · have := h3 n hn; simp; omega
    simp only [loadCtx, loadClient]
    split
    · exact ⟨⟨h1, h2, h3⟩, hf, rfl, rfl, Nat.le_refl _⟩
    · rename_i hn
      split
      · exact ⟨⟨h1, h2, h3⟩, hf, rfl, rfl, Nat.le_refl _⟩
      · split
        · exact ⟨add _ rfl hn, hf, rfl, rfl, Nat.le_succ _⟩
        · split
          · exact ⟨add _ rfl hn, hf, rfl, rfl, Nat.le_succ _⟩
          · exact ⟨add _ rfl hn, hf, rfl, rfl, Nat.le_succ _⟩
  | server =>
    have add : ∀ c : Ctx, c.id = w.next → w.server = none →
        CtxOk { w with next := w.next + 1, ctxs := w.next :: w.ctxs, server := some c } := by
      intro c hc hn
      refine ⟨?_, ?_, ?_⟩
      · simp only [cached, hn] at h1 ⊢
        simp only [Option.map_some, Option.toList_some, hc]
        simp only [Option.map_none, Option.toList_none, List.append_nil] at h1
        exact (h1.cons _).trans (List.perm_append_comm (l₁ := [w.next]))
      · simp [hnew, h2]
      · intro n hn
        simp only [List.mem_cons] at hn
        rcases hn with rfl | hn
        · simp
        · have := h3 n hn; simp; omega
    have drop : ∀ c : Ctx, w.server = none → CtxOk { freeCtx w.next { w with next := w.next + 1, ctxs := w.next :: w.ctxs, server := some c } with server := none } ∧
        (freeCtx w.next { w with next := w.next + 1, ctxs := w.next :: w.ctxs, server := some c }).fault = false := by
      intro c hn
      refine ⟨⟨?_, ?_, ?_⟩, ?_⟩
      · simpa [freeCtx, cached, hn] using h1
      · simpa [freeCtx] using h2
      · intro n hn
        simp only [freeCtx, List.erase_cons_head] at hn
        have := h3 n hn
        simp [freeCtx]; omega
      · simp [freeCtx, hf]
    simp only [loadCtx, loadServer]
    split
    · exact ⟨⟨h1, h2, h3⟩, hf, rfl, rfl, Nat.le_refl _⟩
    · rename_i hn
      split
      · exact ⟨⟨h1, h2, h3⟩, hf, rfl, rfl, Nat.le_refl _⟩
      · split
        · exact ⟨add _ rfl hn, hf, rfl, rfl, Nat.le_succ _⟩
        · split
          · exact ⟨add _ rfl hn, hf, rfl, rfl, Nat.le_succ _⟩
          · split
            · exact ⟨add _ rfl hn, hf, rfl, rfl, Nat.le_succ _⟩
            · split
              · exact ⟨add _ rfl hn, hf, rfl, rfl, Nat.le_succ _⟩
              · split
                · split
                  · exact ⟨add _ rfl hn, hf, rfl, rfl, Nat.le_succ _⟩
                  · exact ⟨(drop _ hn).1, (drop _ hn).2, rfl, rfl, Nat.le_succ _⟩
                · exact ⟨(drop _ hn).1, (drop _ hn).2, rfl, rfl, Nat.le_succ _⟩

/-- What is allocated is what the connections and the two caches hold, and numbers are not used twice. -/
structure Inv (w : World) (l : List Tls) : Prop where
  recs : w.recs.Perm (l.map (·.rcd))
  ssls : w.ssls.Perm (l.map (·.ssl))
  nd : w.recs.Nodup ∧ w.ssls.Nodup
  lt : (∀ n ∈ w.recs, n < w.next) ∧ (∀ n ∈ w.ssls, n < w.next)
  ctx : CtxOk w
  ok : w.fault = false

theorem loadCon_ok {w : World} (c : Ctx) (side : Side) (r : Res) (h : CtxOk w) (hf : w.fault = false) :
    CtxOk (loadCon c side r w).1 ∧ (loadCon c side r w).1.fault = false ∧ (loadCon c side r w).1.recs = w.recs ∧ w.next ≤ (loadCon c side r w).1.next ∧
      ((loadCon c side r w).2 = none → (loadCon c side r w).1.ssls = w.ssls) ∧
      (∀ m x k, (loadCon c side r w).2 = some (m, x, k) → m = w.next ∧ (loadCon c side r w).1.ssls = w.next :: w.ssls ∧ w.next < (loadCon c side r w).1.next) := by
  obtain ⟨h1, h2, h3⟩ := h
  have hl : ∀ n ∈ w.ctxs, n < w.next + 1 := fun n hn => by have := h3 n hn; omega
  unfold loadCon
  split
  · exact ⟨⟨h1, h2, h3⟩, hf, rfl, Nat.le_refl _, fun _ => rfl, by simp⟩
  · split
    · refine ⟨⟨h1, h2, hl⟩, hf, rfl, Nat.le_succ _, by simp, ?_⟩
      intro m x k he
      simp at he
      exact ⟨he.1.symm, rfl, Nat.lt_succ_self _⟩
    · split
      · split
        · refine ⟨⟨h1, h2, hl⟩, hf, rfl, Nat.le_succ _, by simp, ?_⟩
          intro m x k he
          simp at he
          exact ⟨he.1.symm, rfl, Nat.lt_succ_self _⟩
        · exact ⟨⟨h1, h2, hl⟩, by simp [freeSsl, hf], rfl, Nat.le_succ _, by simp [freeSsl], by simp⟩
      · exact ⟨⟨h1, h2, hl⟩, by simp [freeSsl, hf], rfl, Nat.le_succ _, by simp [freeSsl], by simp⟩

theorem create_inv {w : World} {l : List Tls} (side : Side) (fd : Nat) (r : Res) (h : Inv w l) :
    Inv (create side fd r w).1 (l ++ (create side fd r w).2.toList) := by
  obtain ⟨h1, h2, ⟨h3, h4⟩, ⟨h5, h6⟩, h7, h8⟩ := h
  have hnr : w.next ∉ w.recs := fun hm => by have := h5 _ hm; omega
  unfold create
  split
  · simpa using ⟨h1, h2, ⟨h3, h4⟩, ⟨h5, h6⟩, h7, h8⟩
  · have hc0 : CtxOk { w with next := w.next + 1, recs := w.next :: w.recs } :=
      ⟨h7.ctxs, h7.nd, fun n hn => by have := h7.lt n hn; simp; omega⟩
    obtain ⟨a1, a2, a3, a4, a5⟩ := loadCtx_ok side r hc0 h8
    have fail : ∀ w1 : World, CtxOk w1 → w1.fault = false → w1.recs = w.next :: w.recs → w1.ssls = w.ssls → w.next + 1 ≤ w1.next →
        Inv (freeRec w.next w1) l := by
      intro w1 b1 b2 b3 b4 b5
      refine ⟨?_, ?_, ⟨?_, ?_⟩, ⟨?_, ?_⟩, ⟨b1.ctxs, b1.nd, b1.lt⟩, ?_⟩
      · simpa [freeRec, b3] using h1
      · simpa [freeRec, b4] using h2
      · simpa [freeRec, b3] using h3
      · simpa [freeRec, b4] using h4
      · simp only [freeRec, b3, List.erase_cons_head]
        intro n hn; have := h5 n hn; omega
      · simp only [freeRec, b4]
        intro n hn; have := h6 n hn; omega
      · simp [freeRec, b2, b3]
    dsimp only
    split
    · rename_i w1 he
      rw [he] at a1 a2 a3 a4 a5
      simpa using fail w1 a1 a2 a3 a4 a5
    · rename_i w1 c he
      rw [he] at a1 a2 a3 a4 a5
      obtain ⟨d1, d2, d3, d4, d5, d6⟩ := loadCon_ok c side r a1 a2
      simp only at a3 a4 a5
      split
      · rename_i w2 he2
        rw [he2] at d1 d2 d3 d4 d5
        simpa using fail w2 d1 d2 (by rw [d3, a3]) (by rw [d5 rfl, a4]) (by simp at d4; omega)
      · rename_i w2 m x k he2
        rw [he2] at d1 d2 d3 d4 d6
        obtain ⟨e1, e2, e3⟩ := d6 m x k rfl
        simp only at d1 d2 d3 d4 e2 e3
        have hns : w1.next ∉ w.ssls := fun hm => by have := h6 _ hm; omega
        have bad : Inv (freeRec w.next (freeSsl m w2)) l := by
          refine fail _ ⟨d1.ctxs, d1.nd, d1.lt⟩ ?_ ?_ ?_ ?_
          · simp [freeSsl, d2, e2, e1]
          · simp [freeSsl, d3, a3]
          · simp [freeSsl, e2, e1, a4]
          · simp only [freeSsl]; omega
        split
        · simpa using bad
        · split
          · simpa using bad
          · refine ⟨?_, ?_, ⟨?_, ?_⟩, ⟨?_, ?_⟩, d1, d2⟩
            · simp only [d3, a3, Option.toList_some, List.map_append, List.map_cons, List.map_nil]
              exact (h1.cons _).trans (List.perm_append_comm (l₁ := [w.next]))
            · simp only [e2, a4, e1, Option.toList_some, List.map_append, List.map_cons, List.map_nil]
              exact (h2.cons _).trans (List.perm_append_comm (l₁ := [w1.next]))
            · simp [d3, a3, hnr, h3]
            · simp [e2, a4, hns, h4]
            · simp only [d3, a3, List.mem_cons]
              rintro n (rfl | hn)
              · omega
              · have := h5 n hn; omega
            · simp only [e2, a4, List.mem_cons]
              rintro n (rfl | hn)
              · omega
              · have := h6 n hn; omega

theorem release_inv {w : World} {l : List Tls} (i : Nat) (t : Tls) (hi : l[i]? = some t) (h : Inv w l) : Inv (release t w) (l.eraseIdx i) := by
  obtain ⟨h1, h2, ⟨h3, h4⟩, ⟨h5, h6⟩, h7, h8⟩ := h
  have hm : t ∈ l := List.mem_of_getElem? hi
  have p : l.Perm (t :: l.eraseIdx i) := by
    obtain ⟨hlt, rfl⟩ := List.getElem?_eq_some_iff.1 hi
    exact (List.getElem_cons_eraseIdx_perm hlt).symm
  have pr : (w.recs.erase t.rcd).Perm ((l.eraseIdx i).map (·.rcd)) := by
    have := (h1.trans (p.map _)).erase t.rcd
    simpa using this
  have ps : (w.ssls.erase t.ssl).Perm ((l.eraseIdx i).map (·.ssl)) := by
    have := (h2.trans (p.map _)).erase t.ssl
    simpa using this
  refine ⟨pr, ps, ⟨h3.erase _, h4.erase _⟩, ⟨?_, ?_⟩, ⟨h7.ctxs, h7.nd, h7.lt⟩, ?_⟩
  · intro n hn; exact h5 n (List.mem_of_mem_erase hn)
  · intro n hn; exact h6 n (List.mem_of_mem_erase hn)
  · have hr : t.rcd ∈ w.recs := h1.mem_iff.2 (List.mem_map_of_mem hm)
    have hs : t.ssl ∈ w.ssls := h2.mem_iff.2 (List.mem_map_of_mem hm)
    simp [release, freeRec, freeSsl, h8, hr, hs]

theorem run_inv (ops : List Op) : Inv (run ops).1 (run ops).2 := by
  have : ∀ (ops : List Op) (s : World × List Tls), Inv s.1 s.2 → Inv (ops.foldl step s).1 (ops.foldl step s).2 := by
    intro ops
    induction ops with
    | nil => intro s h; exact h
    | cons op ops ih =>
      intro s h
      refine ih _ ?_
      cases op with
      | create side fd r =>
        have := create_inv side fd r h
        simp only [step]
        split <;> rename_i he <;> rw [he] at this
        · simpa using this
        · simpa using this
      | release i =>
        simp only [step]
        split
        · exact h
        · rename_i t ht
          exact release_inv i t ht h
  exact this ops _ ⟨.refl _, .refl _, ⟨.nil, .nil⟩, ⟨by simp, by simp⟩, ⟨.refl _, .nil, by simp⟩, rfl⟩

/-- **C98 (memory)**: whatever fails, after every history nothing was released that was not allocated, the records and `SSL`s that are allocated are exactly
those of the connections, and when the worker ends no context is left. -/
theorem c98_memory (ops : List Op) :
    let w := (run ops).1
    let l := (run ops).2
    w.recs.Perm (l.map (·.rcd)) ∧ w.ssls.Perm (l.map (·.ssl)) ∧ (finish w).ctxs = [] ∧ (finish w).fault = false := by
  intro w l
  have h : Inv w l := run_inv ops
  refine ⟨h.recs, h.ssls, ?_⟩
  have hc := h.ctx.ctxs
  have hn := h.ctx.nd
  have hf := h.ok
  have hd := hc.nodup_iff.1 hn
  unfold finish
  rcases hcl : w.client with _ | a <;> rcases hsv : w.server with _ | b <;> simp only [cached, hcl, hsv] at hc hd ⊢
  · simp at hc; simp [hc, hf]
  · simp at hc; simp [hsv, freeCtx, hc, hf]
  · simp at hc; simp [freeCtx, hsv, hc, hf]
  · simp at hc hd
    have e : (w.ctxs.erase a.id).Perm [b.id] := by simpa using hc.erase a.id
    have ha : a.id ∈ w.ctxs := hc.mem_iff.2 (by simp)
    have e' := List.perm_singleton.1 e
    simp [freeCtx, hsv, e', hf, ha]

/-- C98 (what `fault` watches): releasing something that is not allocated is noticed, and what was noticed is not forgotten by a later release. -/
theorem c98_watch (n : Nat) (w : World) :
    (n ∉ w.recs ∨ w.fault = true → (freeRec n w).fault = true) ∧ (n ∉ w.ssls ∨ w.fault = true → (freeSsl n w).fault = true) ∧
      (n ∉ w.ctxs ∨ w.fault = true → (freeCtx n w).fault = true) := by
  refine ⟨?_, ?_, ?_⟩ <;> rintro (h | h) <;> simp [freeRec, freeSsl, freeCtx, h]

/-- A case: a connection released twice. -/
example : let s := run [.create .server 3 good]
    (s.2.map fun t => ((release t s.1).fault, (release t (release t s.1)).fault)) = [(false, true)] := by decide

/-- A case: a failed certificate, a failed `SSL_set_fd`, two connections of which one is released. -/
example : (run [.create .server 3 good, .create .server 4 { good with cert := none }, .create .server 4 { good with setFd := false }, .create .client 5 good,
    .release 0]).1 =
    World.mk (some ⟨8, ⟨true, true, false, false, false⟩, none, none⟩) (some ⟨1, ⟨true, true, true, true, false⟩, some 5, some 6⟩) 10 [7] [9] [8, 1] false := by
  decide

end Verif.TlsSetup
