import Verif.Spec.WebConn
import Verif.Proofs.WebSend
/-
Proofs about connections of the web server.
-/
namespace Verif.WebConn
open Verif Verif.Spec.WebConn
open Verif.WebSend (Going)

variable {k : Nat} {home index : List UInt8} {E : Nat → Env}

/-! ### Callbacks and interest -/

theorem read_rcb (s : Ssl.S) (x : Ssl.Res) : (Ssl.read s x).rcb = s.rcb := by
  cases x <;> simp only [Ssl.read, Ssl.cache, Ssl.restoreW, Ssl.restoreTyp]
  split <;> split <;> rfl

/-- Interest and callbacks at any time when control is with the event loop. -/
def Reg (c : C) : Prop :=
  match c.ph with
  | .req _ => c.t.rcb = some (.app 20) ∧ (c.t.opt = ⟨true, false⟩ ∨ (c.t.opt = ⟨false, true⟩ ∧ c.t.wcb = some .rd))
  | .rsp w _ => w.fin = none ∧ ∃ hdr body, Going hdr body w
  | .gone _ => True

theorem proc_reg (c : C) (ps : Ps) (h : c.t.rcb = some (.app 20)) : Reg (proc k home index E c ps) := by
  fun_induction proc k home index E c ps with
  | case1 c ps hi => exact ⟨(read_rcb _ _).trans h, .inl rfl⟩
  | case2 c ps io hi => exact ⟨(read_rcb _ _).trans h, .inl rfl⟩
  | case3 c ps io hi => exact ⟨(read_rcb _ _).trans h, .inr ⟨rfl, rfl⟩⟩
  | case4 c ps io hi => trivial
  | case5 c ps io hi hs => exact ⟨(read_rcb _ _).trans h, .inl rfl⟩
  | case6 => trivial
  | case7 c ps io hi r rest hs hr ps' hf ih => exact ih ((read_rcb _ _).trans h)
  | case8 => trivial
  | case9 => trivial
  | case10 => trivial
  | case11 => trivial
  | case12 c ps io hi r rest hs hr q hf hdr body ha w hw => exact ⟨hw, hdr, body, WebSend.start_going ..⟩
  | case13 c ps io hi r rest hs hr q hf hdr body ha w hw hk ih => exact ih rfl
  | case14 => trivial
  | case15 => trivial
  | case16 => trivial

theorem after_reg (c : C) (w : WebSend.W) (keep : Bool) {hdr : List (List UInt8)} {body : WebSend.Body} (h : Going hdr body w) :
    Reg (after k home index E c w keep) := by
  unfold after
  split
  · exact ⟨by assumption, hdr, body, h⟩
  · split
    · exact proc_reg _ _ rfl
    · trivial
  · trivial
  · trivial

theorem step_reg {c : C} (h : Reg c) {e : Ev} (hr : Reportable c e) : ∃ c', step k home index E c e = some c' ∧ Reg c' := by
  have hA : ∀ b bs, Reg { c with sock := c.sock ++ [(b, bs)] } := fun b bs => h
  have key : ∀ (w : WebSend.W) (keep : Bool) (e' : WebSend.Ev), c.ph = .rsp w keep → Spec.WebSend.Reportable w e' →
      ∃ c', (WebSend.step w e').map (fun w' => after k home index E c w' keep) = some c' ∧ Reg c' := by
    intro w keep e' hp hr'
    unfold Reg at h
    rw [hp] at h
    obtain ⟨-, hdr, body, hg⟩ := h
    obtain ⟨w', h1, h2⟩ := WebSend.step_going hg hr'
    exact ⟨_, by rw [h1]; rfl, after_reg _ _ _ h2⟩
  cases e with
  | arrive b bs => exact ⟨_, rfl, hA b bs⟩
  | r =>
    simp only [step]
    cases hp : c.ph with
    | gone y => exact ⟨c, rfl, h⟩
    | rsp w keep => exact key w keep .r hp (by simp only [Reportable, hp] at hr; exact hr)
    | req ps =>
      unfold Reg at h
      rw [hp] at h
      simp only [h.1]
      exact ⟨_, rfl, proc_reg _ _ h.1⟩
  | w =>
    simp only [step]
    cases hp : c.ph with
    | gone y => exact ⟨c, rfl, h⟩
    | rsp w keep => exact key w keep .w hp (by simp only [Reportable, hp] at hr; exact hr)
    | req ps =>
      unfold Reg at h
      rw [hp] at h
      simp only [Reportable, hp] at hr
      obtain ⟨h1, h2 | ⟨-, h2⟩⟩ := h
      · rw [h2] at hr; cases hr
      · simp only [h1, h2]
        exact ⟨_, rfl, proc_reg _ _ h1⟩
  | timeout =>
    simp only [step]
    cases hp : c.ph with
    | gone y => exact ⟨c, rfl, h⟩
    | rsp w keep => exact key w keep .timeout hp trivial
    | req ps => exact ⟨_, rfl, trivial⟩

theorem run_reg (es : List Ev) {c : C} (h : Reg c) (hp : Possible k home index E c es) : ∃ r, run k home index E c es = some r ∧ Reg r := by
  induction es generalizing c with
  | nil => exact ⟨c, rfl, h⟩
  | cons e es ih =>
    obtain ⟨c', h1, h2⟩ := step_reg h hp.1
    obtain ⟨r, h3, h4⟩ := ih h2 (hp.2 c' h1)
    exact ⟨r, by simp [run, h1, h3], h4⟩

theorem start_reg (t0 : Ssl.S) (sock : List (UInt8 × List UInt8)) : Reg (start k home index E t0 sock) := proc_reg _ _ rfl

theorem Reg.continues {c : C} (h : Reg c) : Continues c := by
  unfold Reg at h
  unfold Continues
  cases hp : c.ph with
  | req ps =>
    rw [hp] at h
    obtain ⟨h1, h2 | ⟨h2, h3⟩⟩ := h
    · exact ⟨h1, .inl (by rw [h2])⟩
    · exact ⟨h1, .inr ⟨by rw [h2], h3⟩⟩
  | rsp w keep =>
    rw [hp] at h
    obtain ⟨h1, hdr, body, h2⟩ := h
    exact h2.continues h1
  | gone y => trivial

/-! ### Responses -/

/-- Records that are all of a request, or the rest of one. -/
def feedAll (k : Nat) : Ps → List (UInt8 × List UInt8) → Fed
  | ps, [] => .more ps
  | ps, r :: rs =>
    if r.2.length < room ps then
      match feed k ps r.1 r.2 with
      | .more ps' => feedAll k ps' rs
      | .req q => if rs = [] then .req q else .stop
      | x => x
    else .stop

/-- The response to records that complete a request. -/
def resp (k : Nat) (home index : List UInt8) (e : Env) (ps : Ps) (rs : List (UInt8 × List UInt8)) : Option (List (List UInt8) × WebSend.Body × Bool) :=
  match feedAll k ps rs with
  | .req q =>
    match answer home index e q with
    | .rsp h b => some (h, b, q.keep)
    | _ => none
  | _ => none

/-- The responses to the requests from number `i` on, up to the first that ends the connection. -/
def expected (k : Nat) (home index : List UInt8) (E : Nat → Env) : Nat → List (List (UInt8 × List UInt8)) → List UInt8
  | _, [] => []
  | i, r :: rs =>
    match resp k home index (E i) .line r with
    | some (h, b, kp) => Spec.WebSend.whole h b ++ (if kp then expected k home index E (i + 1) rs else [])
    | none => []

/-- Every request is answered. -/
def Fine (k : Nat) (home index : List UInt8) (E : Nat → Env) : Nat → List (List (UInt8 × List UInt8)) → Prop
  | _, [] => True
  | i, r :: rs => (∃ h b kp, resp k home index (E i) .line r = some (h, b, kp) ∧ Spec.WebSend.Sized b) ∧ Fine k home index E (i + 1) rs

/-- The connection is kept after every request. -/
def Keeps (k : Nat) (home index : List UInt8) (E : Nat → Env) : Nat → List (List (UInt8 × List UInt8)) → Prop
  | _, [] => True
  | i, r :: rs => (∃ h b, resp k home index (E i) .line r = some (h, b, true)) ∧ Keeps k home index E (i + 1) rs

theorem expected_append {done : List (List (UInt8 × List UInt8))} (todo : List (List (UInt8 × List UInt8))) {i : Nat} (h : Keeps k home index E i done) :
    expected k home index E i (done ++ todo) = expected k home index E i done ++ expected k home index E (i + done.length) todo := by
  induction done generalizing i with
  | nil => rfl
  | cons r rs ih =>
    obtain ⟨⟨hd, b, e⟩, h2⟩ := h
    simp only [List.cons_append, expected, e, if_true, ih h2, List.append_assoc, List.length_cons]
    rw [show i + (rs.length + 1) = i + 1 + rs.length by omega]

theorem Keeps.snoc {done : List (List (UInt8 × List UInt8))} {i : Nat} (h : Keeps k home index E i done) {r : List (UInt8 × List UInt8)} {hd : List (List UInt8)} {b : WebSend.Body}
    (e : resp k home index (E (i + done.length)) .line r = some (hd, b, true)) : Keeps k home index E i (done ++ [r]) := by
  induction done generalizing i with
  | nil => exact ⟨⟨hd, b, e⟩, trivial⟩
  | cons x rs ih => exact ⟨h.1, ih h.2 (by rw [show i + 1 + rs.length = i + (x :: rs).length by simp; omega]; exact e)⟩

theorem Fine.tail {i : Nat} {a b : List (List (UInt8 × List UInt8))} (h : Fine k home index E i (a ++ b)) : Fine k home index E (i + a.length) b := by
  induction a generalizing i with
  | nil => exact h
  | cons x a ih => have := ih h.2; rwa [show i + 1 + a.length = i + (x :: a).length by simp; omega] at this

theorem expected_mono (i : Nat) (a b : List (List (UInt8 × List UInt8))) : expected k home index E i a <+: expected k home index E i (a ++ b) := by
  induction a generalizing i with
  | nil => exact List.nil_prefix
  | cons x a ih =>
    simp only [List.cons_append, expected]
    split
    · rename_i h bd kp e
      rw [List.prefix_append_right_inj]
      cases kp
      · exact List.prefix_refl _
      · exact ih _
    · exact List.prefix_refl _

/-- The records `l` are what is missing from the requests `todo`, with the first of them read up to `ps`. -/
def Rest (k : Nat) (home index : List UInt8) (e : Env) (ps : Ps) (l : List (UInt8 × List UInt8)) : List (List (UInt8 × List UInt8)) → Prop
  | [] => ps = .line ∧ l = []
  | full :: todo => ∃ q, resp k home index e ps q = resp k home index e .line full ∧ l = q ++ todo.flatten

/-- What holds of a connection whose records are requests that are answered. `Q`: all of them; `fut`: the records that have not arrived yet. -/
def Inv (k : Nat) (home index : List UInt8) (E : Nat → Env) (Q : List (List (UInt8 × List UInt8))) (fut : List (UInt8 × List UInt8)) (c : C) : Prop :=
  match c.ph with
  | .req ps => ∃ done todo, Q = done ++ todo ∧ Keeps k home index E 0 done ∧ c.i = done.length ∧ c.out = expected k home index E 0 done ∧
      Rest k home index (E c.i) ps (c.sock ++ fut) todo
  | .rsp w keep => ∃ done r rest hdr body, Q = done ++ r :: rest ∧ c.sock ++ fut = rest.flatten ∧ Keeps k home index E 0 done ∧ c.i = done.length ∧
      c.out = expected k home index E 0 done ∧ resp k home index (E c.i) .line r = some (hdr, body, keep) ∧ Spec.WebSend.Sized body ∧ Going hdr body w ∧ w.fin = none
  | .gone why => c.out <+: expected k home index E 0 Q ∧ (why = .done → c.out = expected k home index E 0 Q) ∧ why ≠ .crash ∧ why ≠ .spin

/-- The next record of a request that is answered: it fits, and the request goes on or is complete. -/
theorem resp_cons {e : Env} {ps : Ps} {q : List (UInt8 × List UInt8)} {h : List (List UInt8)} {b : WebSend.Body} {kp : Bool}
    (hq : resp k home index e ps q = some (h, b, kp)) : ∃ r q', q = r :: q' ∧ r.2.length < room ps ∧
      ((∃ ps', feed k ps r.1 r.2 = .more ps' ∧ resp k home index e ps' q' = some (h, b, kp)) ∨
       (q' = [] ∧ ∃ a, feed k ps r.1 r.2 = .req a ∧ answer home index e a = .rsp h b ∧ a.keep = kp)) := by
  cases q with
  | nil => simp [resp, feedAll] at hq
  | cons r q' =>
    refine ⟨r, q', rfl, ?_⟩
    unfold resp feedAll at hq
    by_cases hl : r.2.length < room ps
    · refine ⟨hl, ?_⟩
      rw [if_pos hl] at hq
      cases hf : feed k ps r.1 r.2 with
      | more ps' => rw [hf] at hq; exact .inl ⟨ps', rfl, hq⟩
      | stop => rw [hf] at hq; simp at hq
      | spin => rw [hf] at hq; simp at hq
      | req a =>
        rw [hf] at hq
        simp only at hq
        by_cases h0 : q' = []
        · rw [if_pos h0] at hq
          simp only at hq
          split at hq
          · rename_i h' b' ha
            cases hq
            exact .inr ⟨h0, a, rfl, ha, rfl⟩
          · cases hq
        · rw [if_neg h0] at hq; simp at hq
    · rw [if_neg hl] at hq; simp at hq

theorem left_fits {n : Nat} {r : UInt8 × List UInt8} (hl : r.2.length < n) {t : List (UInt8 × List UInt8)} : left n r t = t := by
  have : (r.1 :: r.2).drop n = [] := List.drop_eq_nil_of_le (by simp only [List.length_cons]; omega)
  unfold left; rw [this]

/-- A response is over, or goes on. -/
theorem ended {Q done rest : List (List (UInt8 × List UInt8))} {r : List (UInt8 × List UInt8)} {hdr : List (List UInt8)} {body : WebSend.Body} {keep : Bool} {w : WebSend.W}
    (h1 : Q = done ++ r :: rest) (h2 : Keeps k home index E 0 done) (h3 : resp k home index (E done.length) .line r = some (hdr, body, keep))
    (h4 : Spec.WebSend.Sized body) (h5 : Going hdr body w) :
    expected k home index E 0 done ++ w.out <+: expected k home index E 0 Q ∧
    (w.fin = some .done → keep = false → expected k home index E 0 done ++ w.out = expected k home index E 0 Q) ∧
    (w.fin = some .done → keep = true → Keeps k home index E 0 (done ++ [r]) ∧ expected k home index E 0 done ++ w.out = expected k home index E 0 (done ++ [r])) := by
  subst h1
  refine ⟨?_, fun hf hk => ?_, fun hf hk => ⟨?_, ?_⟩⟩
  · rw [expected_append _ h2, List.prefix_append_right_inj, Nat.zero_add, expected, h3]
    exact h5.2.1.2.1.trans (List.prefix_append _ _)
  · subst hk
    rw [expected_append _ h2, Nat.zero_add, expected, h3, h5.2.1.2.2 hf h4]
    simp
  · subst hk; exact h2.snoc (by rw [Nat.zero_add]; exact h3)
  · subst hk
    rw [expected_append _ h2, Nat.zero_add, expected, h3, h5.2.1.2.2 hf h4]
    simp [expected]

/-- Everything of the requests `todo` is still to be read. -/
theorem Rest.fresh (e : Env) (todo : List (List (UInt8 × List UInt8))) : Rest k home index e .line todo.flatten todo := by
  cases todo with
  | nil => exact ⟨rfl, rfl⟩
  | cons full todo => exact ⟨full, rfl, by simp⟩

/-- The record that is read next. -/
theorem Rest.next {ps : Ps} {todo : List (List (UInt8 × List UInt8))} {r : UInt8 × List UInt8} {rest fut : List (UInt8 × List UInt8)} {i : Nat}
    (h : Rest k home index (E i) ps (r :: rest ++ fut) todo) (hF : Fine k home index E i todo) :
    ∃ full todo' hdr body keep, todo = full :: todo' ∧ resp k home index (E i) .line full = some (hdr, body, keep) ∧ Spec.WebSend.Sized body ∧ Fine k home index E (i + 1) todo' ∧
      r.2.length < room ps ∧
      ((∃ ps', feed k ps r.1 r.2 = .more ps' ∧ Rest k home index (E i) ps' (rest ++ fut) todo) ∨
       (rest ++ fut = todo'.flatten ∧ ∃ a, feed k ps r.1 r.2 = .req a ∧ answer home index (E i) a = .rsp hdr body ∧ a.keep = keep)) := by
  cases todo with
  | nil => obtain ⟨-, h⟩ := h; simp at h
  | cons full todo' =>
    obtain ⟨q, h1, h2⟩ := h
    obtain ⟨⟨hdr, body, keep, g1, g2⟩, g3⟩ := hF
    have hq := h1.trans g1
    obtain ⟨r', q', rfl, e2, e3⟩ := resp_cons hq
    simp only [List.cons_append, List.cons.injEq] at h2
    obtain ⟨rfl, h2⟩ := h2
    refine ⟨full, todo', hdr, body, keep, rfl, g1, g2, g3, e2, ?_⟩
    rcases e3 with ⟨ps', e4, e5⟩ | ⟨rfl, e4⟩
    · exact .inl ⟨ps', e4, q', e5.trans g1.symm, h2⟩
    · exact .inr ⟨by simpa using h2, e4⟩

theorem take_fits {n : Nat} {l : List UInt8} (h : l.length < n) : l.take (n - 1) = l := List.take_of_length_le (by omega)

theorem proc_inv (c : C) (ps : Ps) (Q done todo : List (List (UInt8 × List UInt8))) (fut : List (UInt8 × List UInt8)) (hQ : Q = done ++ todo) (hK : Keeps k home index E 0 done)
    (hi : c.i = done.length) (ho : c.out = expected k home index E 0 done) (hR : Rest k home index (E c.i) ps (c.sock ++ fut) todo)
    (hF : Fine k home index E c.i todo) : Inv k home index E Q fut (proc k home index E c ps) := by
  fun_induction proc k home index E c ps generalizing done todo with
  | case1 c ps _ => exact ⟨done, todo, hQ, hK, hi, ho, hR⟩
  | case2 c ps io _ => exact ⟨done, todo, hQ, hK, hi, ho, hR⟩
  | case3 c ps io _ => exact ⟨done, todo, hQ, hK, hi, ho, hR⟩
  | case4 c ps io _ =>
    refine ⟨?_, by simp, by simp, by simp⟩
    show c.out <+: _
    rw [ho, hQ]
    exact expected_mono 0 done _
  | case5 c ps io _ hs => exact ⟨done, todo, hQ, hK, hi, ho, hR⟩
  | case6 c ps io _ r rest hs hr =>
    rw [hs] at hR
    obtain ⟨full, todo', hdr, body, keep, rfl, g1, g2, g3, g4, g5⟩ := hR.next hF
    omega
  | case7 c ps io _ r rest hs hr ps' hf ih =>
    rw [hs] at hR
    obtain ⟨full, todo', hdr, body, keep, g0, g1, g2, g3, g4, g5⟩ := hR.next hF
    rw [take_fits g4] at hf
    rcases g5 with ⟨ps2, g6, g7⟩ | ⟨g6, a, g7, -⟩
    · rw [g6] at hf; cases hf
      exact ih done todo hQ hK hi ho (by simp only [left_fits g4]; exact g7) hF
    · rw [g7] at hf; cases hf
  | case8 c ps io _ r rest hs hr hf =>
    rw [hs] at hR
    obtain ⟨full, todo', hdr, body, keep, rfl, g1, g2, g3, g4, ⟨_, g5, -⟩ | ⟨-, _, g5, -⟩⟩ := hR.next hF <;>
      (rw [take_fits g4, g5] at hf; cases hf)
  | case9 c ps io _ r rest hs hr hf =>
    rw [hs] at hR
    obtain ⟨full, todo', hdr, body, keep, rfl, g1, g2, g3, g4, ⟨_, g5, -⟩ | ⟨-, _, g5, -⟩⟩ := hR.next hF <;>
      (rw [take_fits g4, g5] at hf; cases hf)
  | case10 c ps io _ r rest hs hr q hf ha =>
    rw [hs] at hR
    obtain ⟨full, todo', hdr, body, keep, rfl, g1, g2, g3, g4, ⟨_, g5, -⟩ | ⟨-, _, g5, g6, -⟩⟩ := hR.next hF <;>
      (rw [take_fits g4, g5] at hf; cases hf)
    rw [g6] at ha; cases ha
  | case11 c ps io _ r rest hs hr q hf ha =>
    rw [hs] at hR
    obtain ⟨full, todo', hdr, body, keep, rfl, g1, g2, g3, g4, ⟨_, g5, -⟩ | ⟨-, _, g5, g6, -⟩⟩ := hR.next hF <;>
      (rw [take_fits g4, g5] at hf; cases hf)
    rw [g6] at ha; cases ha
  | case12 c ps io _ r rest hs hr q hf hdr body ha w hw =>
    rw [hs] at hR
    obtain ⟨full, todo', hdr, body, keep, rfl, g1, g2, g3, g4, ⟨_, g5, -⟩ | ⟨g7, _, g5, g6, g8⟩⟩ := hR.next hF <;>
      (rw [take_fits g4, g5] at hf; cases hf)
    rw [g6] at ha; cases ha
    exact ⟨done, full, todo', _, _, hQ, by simp only [left_fits g4]; exact g7, hK, hi, ho, by rw [g8]; exact g1, g2, WebSend.start_going .., hw⟩
  | case13 c ps io _ r rest hs hr q hf hdr body ha w hw hk ih =>
    rw [hs] at hR
    obtain ⟨full, todo', hdr, body, keep, rfl, g1, g2, g3, g4, ⟨_, g5, -⟩ | ⟨g7, _, g5, g6, g8⟩⟩ := hR.next hF <;>
      (rw [take_fits g4, g5] at hf; cases hf)
    rw [g6] at ha; cases ha
    obtain ⟨-, -, d3⟩ := ended hQ hK (by rw [← hi]; exact g1) g2 (WebSend.start_going (Ssl.read c.t .ok) _ _ (E c.i).mem (E c.i).rd (E c.i).dst (E c.i).peek)
    obtain ⟨d4, d5⟩ := d3 hw (g8 ▸ hk)
    refine ih (done ++ [full]) todo' (by rw [hQ]; simp) d4 (by simp [begin, hi]) (by simp only [begin]; rw [ho]; exact d5) ?_ (by simp only [begin]; exact g3)
    simp only [begin, left_fits g4, g7]
    exact Rest.fresh _ _
  | case14 c ps io _ r rest hs hr q hf hdr body ha w hw hk =>
    rw [hs] at hR
    obtain ⟨full, todo', hdr, body, keep, rfl, g1, g2, g3, g4, ⟨_, g5, -⟩ | ⟨g7, _, g5, g6, g8⟩⟩ := hR.next hF <;>
      (rw [take_fits g4, g5] at hf; cases hf)
    rw [g6] at ha; cases ha
    obtain ⟨d1, d2, -⟩ := ended hQ hK (by rw [← hi]; exact g1) g2 (WebSend.start_going (Ssl.read c.t .ok) _ _ (E c.i).mem (E c.i).rd (E c.i).dst (E c.i).peek)
    refine ⟨by simp only; rw [ho]; exact d1, fun _ => by simp only; rw [ho]; exact d2 hw (by rw [← g8]; simpa using hk), by simp, by simp⟩
  | case15 c ps io _ r rest hs hr q hf hdr body ha w hw =>
    rw [hs] at hR
    obtain ⟨full, todo', hdr, body, keep, rfl, g1, g2, g3, g4, ⟨_, g5, -⟩ | ⟨g7, _, g5, g6, g8⟩⟩ := hR.next hF <;>
      (rw [take_fits g4, g5] at hf; cases hf)
    rw [g6] at ha; cases ha
    obtain ⟨d1, -, -⟩ := ended hQ hK (by rw [← hi]; exact g1) g2 (WebSend.start_going (Ssl.read c.t .ok) _ _ (E c.i).mem (E c.i).rd (E c.i).dst (E c.i).peek)
    exact ⟨by simp only; rw [ho]; exact d1, by simp, by simp, by simp⟩
  | case16 c ps io _ r rest hs hr q hf hdr body ha w hw =>
    rw [hs] at hR
    obtain ⟨full, todo', hdr, body, keep, rfl, g1, g2, g3, g4, ⟨_, g5, -⟩ | ⟨g7, _, g5, g6, g8⟩⟩ := hR.next hF <;>
      (rw [take_fits g4, g5] at hf; cases hf)
    rw [g6] at ha; cases ha
    obtain ⟨d1, -, -⟩ := ended hQ hK (by rw [← hi]; exact g1) g2 (WebSend.start_going (Ssl.read c.t .ok) _ _ (E c.i).mem (E c.i).rd (E c.i).dst (E c.i).peek)
    exact ⟨by simp only; rw [ho]; exact d1, by simp, by simp, by simp⟩

theorem after_inv {Q done rest : List (List (UInt8 × List UInt8))} {fut : List (UInt8 × List UInt8)} {r : List (UInt8 × List UInt8)} {hdr : List (List UInt8)}
    {body : WebSend.Body} {keep : Bool} {w : WebSend.W} {c : C}
    (h1 : Q = done ++ r :: rest) (h0 : c.sock ++ fut = rest.flatten) (h2 : Keeps k home index E 0 done) (h3 : c.i = done.length) (h4 : c.out = expected k home index E 0 done)
    (h5 : resp k home index (E c.i) .line r = some (hdr, body, keep)) (h6 : Spec.WebSend.Sized body) (h7 : Going hdr body w)
    (hF : Fine k home index E 0 Q) : Inv k home index E Q fut (after k home index E c w keep) := by
  obtain ⟨g1, g2, g3⟩ := ended h1 h2 (h3 ▸ h5) h6 h7
  unfold after
  split
  · rename_i hf
    exact ⟨done, r, rest, hdr, body, h1, h0, h2, h3, h4, h5, h6, h7, hf⟩
  · rename_i hf
    split
    · rename_i hk
      obtain ⟨g4, g5⟩ := g3 hf hk
      have hF' : Fine k home index E (c.i + 1) rest := by
        rw [h1] at hF
        have := hF.tail
        rw [Nat.zero_add, ← h3] at this
        exact this.2
      refine proc_inv (begin E { c with out := c.out ++ w.out } (c.i + 1) w.t) .line Q (done ++ [r]) rest fut (by rw [h1]; simp) g4 (by simp [begin, h3])
        (by simp only [begin]; rw [h4]; exact g5) ?_ (by simp only [begin]; exact hF')
      simp only [begin, h0]
      exact Rest.fresh _ _
    · rename_i hk
      exact ⟨by simp only; rw [h4]; exact g1, fun _ => by simp only; rw [h4]; exact g2 hf (by simpa using hk), by simp, by simp⟩
  · exact ⟨by simp only; rw [h4]; exact g1, by simp, by simp, by simp⟩
  · exact ⟨by simp only; rw [h4]; exact g1, by simp, by simp, by simp⟩

/-- The records of an event. -/
def recOf : Ev → List (UInt8 × List UInt8)
  | .arrive b bs => [(b, bs)]
  | _ => []

theorem Inv.arrive {Q : List (List (UInt8 × List UInt8))} {fut : List (UInt8 × List UInt8)} {c : C} {r : UInt8 × List UInt8} (h : Inv k home index E Q (r :: fut) c) :
    Inv k home index E Q fut { c with sock := c.sock ++ [r] } := by
  have he : c.sock ++ [r] ++ fut = c.sock ++ r :: fut := by simp
  unfold Inv at h ⊢
  cases hp : c.ph with
  | req ps =>
    rw [hp] at h
    simp only [he]
    exact h
  | rsp w keep =>
    rw [hp] at h
    simp only [he]
    exact h
  | gone y => rw [hp] at h; exact h

theorem step_inv {Q : List (List (UInt8 × List UInt8))} {fut : List (UInt8 × List UInt8)} {c c' : C} {e : Ev} (h : Inv k home index E Q (recOf e ++ fut) c) (hF : Fine k home index E 0 Q)
    (hr : Reportable c e) (hs : step k home index E c e = some c') : Inv k home index E Q fut c' := by
  have key : Inv k home index E Q fut c → ∀ (w : WebSend.W) (keep : Bool) (e' : WebSend.Ev), Spec.WebSend.Reportable w e' → c.ph = .rsp w keep →
      (WebSend.step w e').map (fun w' => after k home index E c w' keep) = some c' → Inv k home index E Q fut c' := by
    intro h w keep e' hr hp hm
    unfold Inv at h
    rw [hp] at h
    obtain ⟨done, r, rest, hdr, body, h1, h0, h2, h3, h4, h5, h6, h7, h8⟩ := h
    obtain ⟨w', g1, g2⟩ := WebSend.step_going h7 hr
    rw [g1] at hm
    cases hm
    exact after_inv h1 h0 h2 h3 h4 h5 h6 g2 hF
  have kproc : Inv k home index E Q fut c → ∀ ps, c.ph = .req ps → Inv k home index E Q fut (proc k home index E c ps) := by
    intro h ps hp
    unfold Inv at h
    rw [hp] at h
    obtain ⟨done, todo, h1, h2, h3, h4, h5⟩ := h
    refine proc_inv c ps Q done todo fut h1 h2 h3 h4 h5 ?_
    rw [h1] at hF
    have := hF.tail
    rwa [Nat.zero_add, ← h3] at this
  cases e with
  | arrive b bs =>
    cases hs
    exact Inv.arrive (r := (b, bs)) h
  | r =>
    replace h : Inv k home index E Q fut c := h
    simp only [step] at hs
    cases hp : c.ph with
    | gone y => rw [hp] at hs; cases hs; exact h
    | rsp w keep => rw [hp] at hs; exact key h w keep .r (by simp only [Reportable, hp] at hr; exact hr) hp hs
    | req ps =>
      rw [hp] at hs
      simp only at hs
      split at hs <;> cases hs
      · exact h
      · exact kproc h ps hp
  | w =>
    replace h : Inv k home index E Q fut c := h
    simp only [step] at hs
    cases hp : c.ph with
    | gone y => rw [hp] at hs; cases hs; exact h
    | rsp w keep => rw [hp] at hs; exact key h w keep .w (by simp only [Reportable, hp] at hr; exact hr) hp hs
    | req ps =>
      rw [hp] at hs
      simp only at hs
      split at hs <;> cases hs
      · exact h
      · exact kproc h ps hp
  | timeout =>
    replace h : Inv k home index E Q fut c := h
    simp only [step] at hs
    cases hp : c.ph with
    | gone y => rw [hp] at hs; cases hs; exact h
    | rsp w keep => rw [hp] at hs; exact key h w keep .timeout trivial hp hs
    | req ps =>
      rw [hp] at hs
      cases hs
      unfold Inv at h
      rw [hp] at h
      obtain ⟨done, todo, h1, h2, h3, h4, -⟩ := h
      refine ⟨?_, by simp, by simp, by simp⟩
      simp only
      rw [h1, h4]
      exact expected_mono _ _ _

/-- The records that arrive. -/
def recsOf (es : List Ev) : List (UInt8 × List UInt8) := es.flatMap recOf

theorem run_inv (es : List Ev) {Q : List (List (UInt8 × List UInt8))} {fut : List (UInt8 × List UInt8)} {c c' : C} (h : Inv k home index E Q (recsOf es ++ fut) c)
    (hF : Fine k home index E 0 Q) (hp : Possible k home index E c es) (hs : run k home index E c es = some c') : Inv k home index E Q fut c' := by
  induction es generalizing c with
  | nil => cases hs; simpa [recsOf] using h
  | cons e es ih =>
    simp only [run, Option.bind_eq_some_iff] at hs
    obtain ⟨c1, h1, h2⟩ := hs
    have he : recsOf (e :: es) ++ fut = recOf e ++ (recsOf es ++ fut) := by simp [recsOf]
    rw [he] at h
    exact ih (step_inv h hF hp.1 h1) (hp.2 c1 h1) h2

theorem start_inv (t0 : Ssl.S) (sock fut : List (UInt8 × List UInt8)) (Q : List (List (UInt8 × List UInt8))) (hQ : sock ++ fut = Q.flatten) (hF : Fine k home index E 0 Q) :
    Inv k home index E Q fut (start k home index E t0 sock) :=
  proc_inv _ _ Q [] Q fut rfl trivial rfl rfl (by simp only [begin, hQ]; exact Rest.fresh _ _) hF


/-! ### Everything is answered in the end -/

/-- The waits of the requests from number `i` on. -/
def need (E : Nat → Env) : Nat → List (List (UInt8 × List UInt8)) → Nat
  | _, [] => 0
  | i, _ :: rs => readWaits (E i).io + Spec.WebSend.waits (E i).dst + need E (i + 1) rs

/-- The requests from number `i` on can be answered, and the environment lets it happen. -/
def Good (k : Nat) (home index : List UInt8) (E : Nat → Env) : Nat → List (List (UInt8 × List UInt8)) → Prop
  | i, [] => Ssl.Res.err ∉ (E i).io
  | i, r :: rs => (r.length ≤ reads (E i).io ∧ Ssl.Res.err ∉ (E i).io ∧ ∃ h b kp, resp k home index (E i) .line r = some (h, b, kp) ∧
      Spec.WebSend.Sized b ∧ (E i).mem = true ∧ Spec.WebSend.WholeOrWait (E i).dst ∧ (Spec.WebSend.whole h b).length ≤ Spec.WebSend.sents (E i).dst ∧
      ∀ f n, b = .file f n → (∀ x ∈ (E i).rd, 0 < x) ∧ f.length ≤ (E i).rd.length) ∧ Good k home index E (i + 1) rs

/-- All is answered. -/
def Done (c : C) : Prop := c.ph = .gone .done ∨ (c.ph = .req .line ∧ c.sock = [] ∧ Ssl.Res.err ∉ c.io)

/-- The records that are there are the rest of a request, read up to `ps`, and further requests. -/
def Ahead (k : Nat) (home index : List UInt8) (E : Nat → Env) (c : C) (ps : Ps) (n : Nat) : Prop :=
  ∃ full todo q, Good k home index E c.i (full :: todo) ∧ resp k home index (E c.i) ps q = resp k home index (E c.i) .line full ∧ c.sock = q ++ todo.flatten ∧
    q.length ≤ reads c.io ∧ Ssl.Res.err ∉ c.io ∧ readWaits c.io + Spec.WebSend.waits (E c.i).dst + need E (c.i + 1) todo < n

/-- Not all is answered, and at most `n` more events are needed. -/
def Busy (k : Nat) (home index : List UInt8) (E : Nat → Env) (n : Nat) (c : C) : Prop :=
  match c.ph with
  | .req ps => Ahead k home index E c ps n
  | .rsp w _ => w.fin = none ∧ ∃ todo, Good k home index E (c.i + 1) todo ∧ c.sock = todo.flatten ∧ Spec.WebSend.waits w.dst + need E (c.i + 1) todo < n ∧
      ∃ hdr body, Going hdr body w ∧ WebSend.Live hdr body w
  | .gone _ => False

theorem Ahead.mono {m n : Nat} {c : C} {ps : Ps} (h : Ahead k home index E c ps m) (hn : m ≤ n) : Ahead k home index E c ps n := by
  obtain ⟨full, todo, q, h1, h2, h3, h4, h5, h6⟩ := h
  exact ⟨full, todo, q, h1, h2, h3, h4, h5, by omega⟩

theorem Busy.mono {m n : Nat} {c : C} (h : Busy k home index E m c) (hn : m ≤ n) : Busy k home index E n c := by
  unfold Busy at h ⊢
  cases hp : c.ph with
  | req ps => rw [hp] at h; exact Ahead.mono h hn
  | rsp w kp =>
    rw [hp] at h
    obtain ⟨h1, todo, h2, h0, h3, h4⟩ := h
    exact ⟨h1, todo, h2, h0, by omega, h4⟩
  | gone y => rw [hp] at h; exact h

theorem proc_nil (c : C) (ps : Ps) (hps : ps = .line) (hs : c.sock = []) (he : Ssl.Res.err ∉ c.io) : Done (proc k home index E c ps) := by
  subst hps
  rw [proc.eq_def]
  split
  · exact .inr ⟨rfl, hs, he⟩
  · rename_i io hi; exact .inr ⟨rfl, hs, by rw [hi] at he; simp at he; exact he⟩
  · rename_i io hi; exact .inr ⟨rfl, hs, by rw [hi] at he; simp at he; exact he⟩
  · rename_i io hi; rw [hi] at he; simp at he
  · rename_i io hi
    split
    · exact .inr ⟨rfl, hs, by rw [hi] at he; simp at he; exact he⟩
    · rename_i r rest h; rw [hs] at h; cases h

/-- The record that is read next. -/
theorem Ahead.next {c : C} {ps : Ps} {n : Nat} (h : Ahead k home index E c ps n) {r : UInt8 × List UInt8} {rest : List (UInt8 × List UInt8)} (hs : c.sock = r :: rest) :
    ∃ full todo q hdr body keep, Good k home index E c.i (full :: todo) ∧ resp k home index (E c.i) .line full = some (hdr, body, keep) ∧
      rest = q ++ todo.flatten ∧ q.length < reads c.io ∧ readWaits c.io + Spec.WebSend.waits (E c.i).dst + need E (c.i + 1) todo < n ∧ r.2.length < room ps ∧
      ((∃ ps', feed k ps r.1 r.2 = .more ps' ∧ resp k home index (E c.i) ps' q = resp k home index (E c.i) .line full) ∨
       (q = [] ∧ ∃ a, feed k ps r.1 r.2 = .req a ∧ answer home index (E c.i) a = .rsp hdr body ∧ a.keep = keep)) := by
  obtain ⟨full, todo, q, h1, h2, h3, h4, h5, h6⟩ := h
  obtain ⟨⟨-, -, hdr, body, keep, e1, -⟩, -⟩ := id h1
  obtain ⟨r', q', rfl, e2, e3⟩ := resp_cons (h2.trans e1)
  rw [hs] at h3
  simp only [List.cons_append, List.cons.injEq] at h3
  obtain ⟨rfl, h3⟩ := h3
  refine ⟨full, todo, q', hdr, body, keep, h1, e1, h3, by simp only [List.length_cons] at h4; omega, h6, e2, ?_⟩
  rcases e3 with ⟨ps', e4, e5⟩ | e4
  · exact .inl ⟨ps', e4, e5.trans e1.symm⟩
  · exact .inr e4

/-- After a wait. -/
theorem Ahead.wait {c c' : C} {ps : Ps} {n : Nat} (h : Ahead k home index E c ps (n + 1)) (hi : c'.i = c.i) (hs : c'.sock = c.sock)
    (hw : readWaits c'.io < readWaits c.io) (hr : reads c'.io = reads c.io) (he : Ssl.Res.err ∉ c.io → Ssl.Res.err ∉ c'.io) : Ahead k home index E c' ps n := by
  obtain ⟨full, todo, q, h1, h2, h3, h4, h5, h6⟩ := h
  refine ⟨full, todo, q, by rw [hi]; exact h1, by rw [hi]; exact h2, by rw [hs]; exact h3, by omega, he h5, by rw [hi]; omega⟩

theorem Ahead.there {c : C} {ps : Ps} {n : Nat} (h : Ahead k home index E c ps n) : 0 < reads c.io ∧ Ssl.Res.err ∉ c.io ∧ c.sock ≠ [] := by
  obtain ⟨full, todo, q, ⟨⟨-, -, hdr, body, keep, e1, -⟩, -⟩, h2, h3, h4, h5, h6⟩ := h
  obtain ⟨r', q', rfl, e2, e3⟩ := resp_cons (h2.trans e1)
  exact ⟨by simp only [List.length_cons] at h4; omega, h5, by rw [h3]; simp⟩

/-- The requests behind one that is answered. -/
theorem Ahead.fresh {E : Nat → Env} {c : C} {todo : List (List (UInt8 × List UInt8))} (hG : Good k home index E c.i todo) (hio : c.io = (E c.i).io) (hs : c.sock = todo.flatten) {n : Nat}
    (hn : need E c.i todo < n) : (c.sock = [] ∧ Ssl.Res.err ∉ c.io) ∨ Ahead k home index E c .line n := by
  cases todo with
  | nil => exact .inl ⟨hs, by rw [hio]; exact hG⟩
  | cons full todo =>
    obtain ⟨⟨g1, g2, -⟩, -⟩ := id hG
    exact .inr ⟨full, todo, full, hG, rfl, by simpa using hs, by rw [hio]; exact g1, by rw [hio]; exact g2, by rw [hio]; exact hn⟩

theorem proc_live (n : Nat) (c : C) (ps : Ps) (hA : Ahead k home index E c ps (n + 1)) :
    Done (proc k home index E c ps) ∨ Busy k home index E n (proc k home index E c ps) := by
  fun_induction proc k home index E c ps generalizing n with
  | case1 c ps hi => have := hA.there.1; rw [hi] at this; simp [Spec.WebConn.reads] at this
  | case2 c ps io hi => exact .inr (hA.wait rfl rfl (by simp [hi, readWaits]) (by simp [hi, Spec.WebConn.reads]) (by simp [hi]))
  | case3 c ps io hi => exact .inr (hA.wait rfl rfl (by simp [hi, readWaits]) (by simp [hi, Spec.WebConn.reads]) (by simp [hi]))
  | case4 c ps io hi => have := hA.there.2.1; rw [hi] at this; simp at this
  | case5 c ps io hi hs => exact absurd hs hA.there.2.2
  | case6 c ps io _ r rest hs hr =>
    obtain ⟨full, todo, q, hdr, body, keep, g1, g2, g3, g4, g5, g6, -⟩ := hA.next hs
    omega
  | case7 c ps io hi r rest hs hr ps' hf ih =>
    have he := hA.there.2.1
    obtain ⟨full, todo, q, hdr, body, keep, g1, g2, g3, g4, g5, g6, ⟨_, g7, g8⟩ | ⟨_, _, g7, g8⟩⟩ := hA.next hs <;> (rw [take_fits g6, g7] at hf; cases hf)
    refine ih n ⟨full, todo, q, g1, g8, by simp only [left_fits g6]; exact g3, ?_, ?_, ?_⟩
    · simp only [hi, Spec.WebConn.reads] at g4; show q.length ≤ Spec.WebConn.reads io; omega
    · simp only [hi, List.mem_cons, not_or] at he; exact he.2
    · simp only [hi, readWaits] at g5; exact g5
  | case8 c ps io _ r rest hs hr hf =>
    obtain ⟨full, todo, q, hdr, body, keep, g1, g2, g3, g4, g5, g6, ⟨_, g7, g8⟩ | ⟨_, _, g7, g8⟩⟩ := hA.next hs <;> (rw [take_fits g6, g7] at hf; cases hf)
  | case9 c ps io _ r rest hs hr hf =>
    obtain ⟨full, todo, q, hdr, body, keep, g1, g2, g3, g4, g5, g6, ⟨_, g7, g8⟩ | ⟨_, _, g7, g8⟩⟩ := hA.next hs <;> (rw [take_fits g6, g7] at hf; cases hf)
  | case10 c ps io _ r rest hs hr q hf ha =>
    obtain ⟨full, todo, q, hdr, body, keep, g1, g2, g3, g4, g5, g6, ⟨_, g7, g8⟩ | ⟨_, _, g7, g8, -⟩⟩ := hA.next hs <;> (rw [take_fits g6, g7] at hf; cases hf)
    rw [g8] at ha; cases ha
  | case11 c ps io _ r rest hs hr q hf ha =>
    obtain ⟨full, todo, q, hdr, body, keep, g1, g2, g3, g4, g5, g6, ⟨_, g7, g8⟩ | ⟨_, _, g7, g8, -⟩⟩ := hA.next hs <;> (rw [take_fits g6, g7] at hf; cases hf)
    rw [g8] at ha; cases ha
  | case12 c ps io hi r rest hs hr q hf hdr body ha w hw =>
    obtain ⟨full, todo, q, hdr, body, keep, g1, g2, g3, g4, g5, g6, ⟨_, g7, g8⟩ | ⟨rfl, _, g7, g8, g9⟩⟩ := hA.next hs <;> (rw [take_fits g6, g7] at hf; cases hf)
    rw [g8] at ha; cases ha
    obtain ⟨⟨-, -, h, b, kp, e, q1, q2, q3, q4, q5⟩, hG2⟩ := g1
    rw [g2] at e; cases e
    have hm := WebSend.start_live true (Ssl.read c.t .ok) (E c.i).peek q3 q4 q1 q5
    have hg := WebSend.start_going (Ssl.read c.t .ok) hdr body (E c.i).mem (E c.i).rd (E c.i).dst (E c.i).peek
    rw [show WebSend.start true (Ssl.read c.t .ok) hdr body true (E c.i).rd (E c.i).dst (E c.i).peek = w by simp only [w, q2]] at hm
    rcases hm with hm | ⟨m1, m2, m3⟩
    · rw [show w.fin = _ from hm] at hw; cases hw
    · exact .inr ⟨m1, todo, hG2, by simp only [left_fits g6]; exact g3, by show Spec.WebSend.waits w.dst + need E (c.i + 1) todo < _; omega, hdr, body, hg, m2⟩
  | case13 c ps io hi r rest hs hr q hf hdr body ha w hw hk ih =>
    obtain ⟨full, todo, q, hdr, body, keep, g1, g2, g3, g4, g5, g6, ⟨_, g7, g8⟩ | ⟨rfl, _, g7, g8, g9⟩⟩ := hA.next hs <;> (rw [take_fits g6, g7] at hf; cases hf)
    rcases Ahead.fresh (k := k) (home := home) (index := index) (E := E) (c := begin E { c with sock := left (room ps) r rest, out := c.out ++ w.out } (c.i + 1) w.t)
        (todo := todo) g1.2 rfl (by simp only [begin, left_fits g6]; exact g3) (n := n + 1) (by simp only [begin]; omega) with h | h
    · exact .inl (proc_nil _ _ rfl h.1 h.2)
    · exact ih n h
  | case14 => exact .inl (.inl rfl)
  | case15 c ps io hi r rest hs hr q hf hdr body ha w hw =>
    obtain ⟨full, todo, q, hdr, body, keep, g1, g2, g3, g4, g5, g6, ⟨_, g7, g8⟩ | ⟨rfl, _, g7, g8, g9⟩⟩ := hA.next hs <;> (rw [take_fits g6, g7] at hf; cases hf)
    rw [g8] at ha; cases ha
    obtain ⟨⟨-, -, h, b, kp, e, q1, q2, q3, q4, q5⟩, hG2⟩ := g1
    rw [g2] at e; cases e
    have hm := WebSend.start_live true (Ssl.read c.t .ok) (E c.i).peek q3 q4 q1 q5
    rw [show WebSend.start true (Ssl.read c.t .ok) hdr body true (E c.i).rd (E c.i).dst (E c.i).peek = w by simp only [w, q2]] at hm
    rcases hm with hm | ⟨m1, m2, m3⟩
    · rw [show w.fin = _ from hm] at hw; cases hw
    · rw [show w.fin = _ from m1] at hw; cases hw
  | case16 c ps io hi r rest hs hr q hf hdr body ha w hw =>
    obtain ⟨full, todo, q, hdr, body, keep, g1, g2, g3, g4, g5, g6, ⟨_, g7, g8⟩ | ⟨rfl, _, g7, g8, g9⟩⟩ := hA.next hs <;> (rw [take_fits g6, g7] at hf; cases hf)
    rw [g8] at ha; cases ha
    obtain ⟨⟨-, -, h, b, kp, e, q1, q2, q3, q4, q5⟩, hG2⟩ := g1
    rw [g2] at e; cases e
    have hm := WebSend.start_live true (Ssl.read c.t .ok) (E c.i).peek q3 q4 q1 q5
    rw [show WebSend.start true (Ssl.read c.t .ok) hdr body true (E c.i).rd (E c.i).dst (E c.i).peek = w by simp only [w, q2]] at hm
    rcases hm with hm | ⟨m1, m2, m3⟩
    · rw [show w.fin = _ from hm] at hw; cases hw
    · rw [show w.fin = _ from m1] at hw; cases hw

theorem Done.step {c : C} (h : Done c) {e : Ev} (ha : recOf e = []) (he : e ≠ .timeout) {c' : C} (hs : step k home index E c e = some c') : Done c' := by
  cases e with
  | arrive b bs => simp [recOf] at ha
  | timeout => exact absurd rfl he
  | r =>
    rcases h with h | ⟨h1, h2, h3⟩
    · simp only [WebConn.step, h] at hs; cases hs; exact .inl h
    · simp only [WebConn.step, h1] at hs
      split at hs <;> cases hs
      · exact .inr ⟨h1, h2, h3⟩
      · exact proc_nil _ _ rfl h2 h3
  | w =>
    rcases h with h | ⟨h1, h2, h3⟩
    · simp only [WebConn.step, h] at hs; cases hs; exact .inl h
    · simp only [WebConn.step, h1] at hs
      split at hs <;> cases hs
      · exact .inr ⟨h1, h2, h3⟩
      · exact proc_nil _ _ rfl h2 h3

/-- The rest of a connection after a response was continued. -/
theorem after_live {n : Nat} {c : C} {w w' : WebSend.W} {keep : Bool} {hdr : List (List UInt8)} {body : WebSend.Body} {todo : List (List (UInt8 × List UInt8))}
    (hG : Good k home index E (c.i + 1) todo) (hk : c.sock = todo.flatten) (hn : Spec.WebSend.waits w.dst + need E (c.i + 1) todo ≤ n) (hg : Going hdr body w')
    (hm : WebSend.Moved hdr body w w') : Done (after k home index E c w' keep) ∨ Busy k home index E n (after k home index E c w' keep) := by
  unfold after
  rcases hm with hm | ⟨m1, m2, m3⟩
  · rw [hm]
    simp only
    split
    · rcases Ahead.fresh (k := k) (home := home) (index := index) (E := E) (c := begin E { c with out := c.out ++ w'.out } (c.i + 1) w'.t) (todo := todo) hG rfl hk
        (n := n + 1) (by simp only [begin]; omega) with h | h
      · exact .inl (proc_nil _ _ rfl h.1 h.2)
      · exact proc_live n _ _ h
    · exact .inl (.inl rfl)
  · rw [m1]
    exact .inr ⟨m1, todo, hG, hk, by show Spec.WebSend.waits w'.dst + need E (c.i + 1) todo < _; omega, hdr, body, hg, m2⟩

theorem Busy.step {n : Nat} {c : C} (h : Busy k home index E (n + 1) c) (hR : Reg c) {e : Ev} (ha : recOf e = []) (he : e ≠ .timeout) (hr : Reportable c e) {c' : C}
    (hs : step k home index E c e = some c') : Done c' ∨ Busy k home index E n c' := by
  have key : ∀ (w : WebSend.W) (keep : Bool) (e' : WebSend.Ev), e' ≠ .timeout → Spec.WebSend.Reportable w e' → c.ph = .rsp w keep →
      (WebSend.step w e').map (fun w' => after k home index E c w' keep) = some c' → Done c' ∨ Busy k home index E n c' := by
    intro w keep e' he' hr' hp hm
    unfold Busy at h
    rw [hp] at h
    obtain ⟨h1, todo, h2, h0, h3, hdr, body, h4, h5⟩ := h
    obtain ⟨w0, e1, e2⟩ := WebSend.step_calls h4 h1 hr' he'
    obtain ⟨w', r1, r2⟩ := WebSend.step_going h4 hr'
    have hmv : WebSend.Moved hdr body w w' := by
      have hA := h4.2.1.1 h1
      have r1' := r1
      rw [e1] at r1'
      rcases e2 with rfl | rfl
      · exact WebSend.callW_live (w := { w with wR := false }) h1 hA h5 r1'
      · exact WebSend.callW_live (w := { w with wW := false }) h1 hA h5 r1'
    rw [r1] at hm
    cases hm
    exact after_live h2 h0 (by omega) r2 hmv
  have kproc : ∀ ps, c.ph = .req ps → Done (proc k home index E c ps) ∨ Busy k home index E n (proc k home index E c ps) := by
    intro ps hp
    unfold Busy at h
    rw [hp] at h
    exact proc_live n c ps h
  unfold Reg at hR
  cases e with
  | arrive b bs => simp [recOf] at ha
  | timeout => exact absurd rfl he
  | r =>
    simp only [WebConn.step] at hs
    cases hp : c.ph with
    | gone y => unfold Busy at h; rw [hp] at h; exact h.elim
    | rsp w keep => rw [hp] at hs; exact key w keep .r (by simp) (by simp only [Reportable, hp] at hr; exact hr) hp hs
    | req ps =>
      rw [hp] at hs hR
      simp only [hR.1] at hs
      cases hs
      exact kproc ps hp
  | w =>
    simp only [WebConn.step] at hs
    cases hp : c.ph with
    | gone y => unfold Busy at h; rw [hp] at h; exact h.elim
    | rsp w keep => rw [hp] at hs; exact key w keep .w (by simp) (by simp only [Reportable, hp] at hr; exact hr) hp hs
    | req ps =>
      rw [hp] at hs hR
      simp only [Reportable, hp] at hr
      obtain ⟨h1, h2 | ⟨-, h2⟩⟩ := hR
      · rw [h2] at hr; cases hr
      · simp only [h1, h2] at hs
        cases hs
        exact kproc ps hp

theorem Busy.pos {c : C} (h : Busy k home index E 0 c) : False := by
  unfold Busy at h
  split at h
  · obtain ⟨_, _, _, -, -, -, -, -, h⟩ := h; exact absurd h (Nat.not_lt_zero _)
  · obtain ⟨-, _, -, -, h, -⟩ := h; omega
  · exact h

theorem run_live (es : List Ev) {c c' : C} (hR : Reg c) (hp : Possible k home index E c es) (ha : recsOf es = []) (ht : Ev.timeout ∉ es)
    (h : Done c ∨ Busy k home index E es.length c) (hs : run k home index E c es = some c') : Done c' := by
  induction es generalizing c with
  | nil =>
    cases hs
    exact h.resolve_right fun h => h.pos
  | cons e es ih =>
    simp only [run, Option.bind_eq_some_iff] at hs
    obtain ⟨c1, h1, h2⟩ := hs
    simp only [recsOf, List.flatMap_cons, List.append_eq_nil_iff] at ha
    simp only [List.mem_cons, not_or] at ht
    obtain ⟨c1', g1, g2⟩ := step_reg hR hp.1
    rw [h1] at g1
    cases g1
    refine ih g2 (hp.2 c1 h1) ha.2 ht.2 ?_ h2
    rcases h with h | h
    · exact .inl (h.step ha.1 (Ne.symm ht.1) h1)
    · exact h.step hR ha.1 (Ne.symm ht.1) hp.1 h1

theorem start_live (t0 : Ssl.S) (sock : List (UInt8 × List UInt8)) (Q : List (List (UInt8 × List UInt8))) (hQ : sock = Q.flatten) (hG : Good k home index E 0 Q) :
    Done (start k home index E t0 sock) ∨ Busy k home index E (need E 0 Q) (start k home index E t0 sock) := by
  rcases Ahead.fresh (k := k) (home := home) (index := index) (E := E) (c := begin E { i := 0, t := t0, io := [], sock, out := [], ph := .req .line } 0 t0) (todo := Q) hG rfl hQ
    (n := need E 0 Q + 1) (by simp only [begin]; omega) with h | h
  · exact .inl (proc_nil _ _ rfl h.1 h.2)
  · exact proc_live _ _ _ h

end Verif.WebConn
