import Verif.Spec.Path
import Verif.Props.Serve
/-
Invariants of the whole path.
-/
namespace Verif.Path
open Verif Verif.S5 Verif.S5Spec
open Verif.Serve (established leave readAuth readGreet readRequest used used_exact feed_greet_part feed_greet_full feed_req_part feed_req_full req_len
  flatten_nil established_length head12 head2)

/-- The two answers. -/
def answers (h : Host) (port : Nat) (ip : List UInt8) : List UInt8 := [5, 0] ++ established (wanted h port) ip

/-- What of the current part of the script is not in a record yet. -/
def Rest (up lq : List UInt8) (c : List (List UInt8 × Nat)) (k : Nat) (later : List (List UInt8 × Nat)) (rest : List UInt8) : Prop :=
  ∃ X : List (List UInt8), [] ∉ X ∧ c = X.map (·, k) ++ later ∧ rest = up ++ lq ++ X.flatten

/-- The client has nothing to send. -/
def Idle (ph : CPhase) (up lq : List UInt8) (c later : List (List UInt8 × Nat)) : Prop :=
  ph = .closed ∨ (ph = .relay ∧ up = [] ∧ lq = [] ∧ c = later)

/-- The way to the destination, for each phase of the server's session: `recs` are the records the server has not read; nothing has failed if `ok`. -/
def Up (ok : Bool) (hdr : List UInt8) (R D : List (List UInt8)) (v : UInt8) (ms : List UInt8) (rsv : UInt8) (h : Host) (port : Nat)
    (c : List (List UInt8 × Nat)) (ph : CPhase) (up lq : List UInt8) (recs : List (List UInt8)) (t : Serve.St) : Prop :=
  match t.phase with
  | .auth buf => t.wire = [] ∧ t.up = [] ∧ buf.length < 36 ∧ ∃ Hr Gr hrest grest, recs = Hr ++ Gr ∧ buf ++ Hr.flatten ++ hrest = hdr ∧
      Gr.flatten ++ grest = encodeGreeting v ms ∧ (hrest ≠ [] → Gr = []) ∧
      (match ph with
        | .connecting => hrest = hdr ∧ Rest up lq c 0 (R.map (·, 2) ++ D.map (·, 12)) grest
        | .auth left => left ≠ [] ∧ hrest = left ∧ Rest up lq c 0 (R.map (·, 2) ++ D.map (·, 12)) grest
        | .relay => hrest = [] ∧ Rest up lq c 0 (R.map (·, 2) ++ D.map (·, 12)) grest
        | .closed => True)
  | .greet p free => t.wire = [] ∧ t.up = [] ∧ ∃ w rest, feed p1Byte P1.init w = .cont p ∧ free = 12288 - w.length ∧
      w ++ recs.flatten ++ rest = encodeGreeting v ms ∧
      (ph = .closed ∨ (ph = .relay ∧ Rest up lq c 0 (R.map (·, 2) ++ D.map (·, 12)) rest))
  | .greetRsp u => t.up = [] ∧ u ≠ [] ∧ t.wire ++ u = [5, 0] ∧ recs = [] ∧ Idle ph up lq c (R.map (·, 2) ++ D.map (·, 12))
  | .request p free => t.wire = [5, 0] ∧ t.up = [] ∧ ∃ w rest, feed p2Byte P2.init w = .cont p ∧ free = 12288 - w.length ∧
      w ++ recs.flatten ++ rest = encodeReq 5 1 rsv h port ∧
      (ph = .closed ∨ (ph = .relay ∧ Rest up lq c 2 (D.map (·, 12)) rest))
  | .connect a => a = wanted h port ∧ t.wire = [5, 0] ∧ t.up = [] ∧ recs = [] ∧ Idle ph up lq c (D.map (·, 12))
  | .reply u => u ≠ [] ∧ (∃ ip, t.wire ++ u = answers h port ip) ∧ t.up = [] ∧ recs = [] ∧ Idle ph up lq c (D.map (·, 12))
  | .relay => (∃ ip, t.wire = answers h port ip) ∧ ∃ rest, t.up ++ recs.flatten ++ rest = D.flatten ∧
      (ph = .closed ∨ (ph = .relay ∧ rest = up ++ lq ++ (c.map (·.1)).flatten))
  | .closed => ok = false ∧ (∃ ip, t.wire <+: answers h port ip) ∧ t.up <+: D.flatten
  | .crash => False

section
variable {ok : Bool} {key : List UInt8} {admit : List UInt8 → Bool} {hdr : List UInt8} {R D : List (List UInt8)} {v : UInt8} {ms : List UInt8} {rsv : UInt8}
  {h : Host} {port : Nat} {c : List (List UInt8 × Nat)} {ph : CPhase} {up lq : List UInt8} {recs : List (List UInt8)} {t : Serve.St}

/-- The client closes. -/
theorem up_close (hi : Up ok hdr R D v ms rsv h port c ph up lq recs t) (c' : List (List UInt8 × Nat)) (up' lq' : List UInt8) :
    Up ok hdr R D v ms rsv h port c' .closed up' lq' recs t := by
  obtain ⟨tp, sk, wi, tu, lo⟩ := t
  cases tp with
  | auth buf =>
    obtain ⟨h1, h2, h3, Hr, Gr, hr, gr, h4, h5, h6, h7, -⟩ := hi
    exact ⟨h1, h2, h3, Hr, Gr, hr, gr, h4, h5, h6, h7, trivial⟩
  | greet p f =>
    obtain ⟨h1, h2, w, rest, h3, h4, h5, -⟩ := hi
    exact ⟨h1, h2, w, rest, h3, h4, h5, .inl rfl⟩
  | greetRsp u => obtain ⟨h1, h2, h3, h4, -⟩ := hi; exact ⟨h1, h2, h3, h4, .inl rfl⟩
  | request p f =>
    obtain ⟨h1, h2, w, rest, h3, h4, h5, -⟩ := hi
    exact ⟨h1, h2, w, rest, h3, h4, h5, .inl rfl⟩
  | connect a => obtain ⟨h1, h2, h3, h4, -⟩ := hi; exact ⟨h1, h2, h3, h4, .inl rfl⟩
  | reply u => obtain ⟨h1, h2, h3, h4, -⟩ := hi; exact ⟨h1, h2, h3, h4, .inl rfl⟩
  | relay => obtain ⟨h1, rest, h2, -⟩ := hi; exact ⟨h1, rest, h2, .inl rfl⟩
  | closed => exact hi
  | crash => exact hi

theorem rest_move {up' lq' : List UInt8} {k : Nat} {later : List (List UInt8 × Nat)} {rest : List UInt8} (e : up' ++ lq' = up ++ lq)
    (hr : Rest up lq c k later rest) : Rest up' lq' c k later rest := by
  obtain ⟨X, h1, h2, h3⟩ := hr
  exact ⟨X, h1, h2, by rw [h3, e]⟩

/-- Bytes move from the local socket to the client's buffer. -/
theorem up_move {up' lq' : List UInt8} (e : up' ++ lq' = up ++ lq) (hi : Up ok hdr R D v ms rsv h port c ph up lq recs t) :
    Up ok hdr R D v ms rsv h port c ph up' lq' recs t := by
  have hidle : ∀ l, Idle ph up lq c l → Idle ph up' lq' c l := by
    rintro l (h | ⟨h1, h2, h3, h4⟩)
    · exact .inl h
    · subst h2 h3
      rw [List.append_nil] at e
      obtain ⟨e1, e2⟩ := List.append_eq_nil_iff.mp e
      exact .inr ⟨h1, e1, e2, h4⟩
  obtain ⟨tp, sk, wi, tu, lo⟩ := t
  cases tp with
  | auth buf =>
    obtain ⟨h1, h2, h3, Hr, Gr, hr, gr, h4, h5, h6, h7, h8⟩ := hi
    refine ⟨h1, h2, h3, Hr, Gr, hr, gr, h4, h5, h6, h7, ?_⟩
    cases ph with
    | connecting => exact ⟨h8.1, rest_move e h8.2⟩
    | auth l => exact ⟨h8.1, h8.2.1, rest_move e h8.2.2⟩
    | relay => exact ⟨h8.1, rest_move e h8.2⟩
    | closed => trivial
  | greet p f =>
    obtain ⟨h1, h2, w, rest, h3, h4, h5, h6⟩ := hi
    exact ⟨h1, h2, w, rest, h3, h4, h5, h6.imp id fun h => ⟨h.1, rest_move e h.2⟩⟩
  | greetRsp u => obtain ⟨h1, h2, h3, h4, h5⟩ := hi; exact ⟨h1, h2, h3, h4, hidle _ h5⟩
  | request p f =>
    obtain ⟨h1, h2, w, rest, h3, h4, h5, h6⟩ := hi
    exact ⟨h1, h2, w, rest, h3, h4, h5, h6.imp id fun h => ⟨h.1, rest_move e h.2⟩⟩
  | connect a => obtain ⟨h1, h2, h3, h4, h5⟩ := hi; exact ⟨h1, h2, h3, h4, hidle _ h5⟩
  | reply u => obtain ⟨h1, h2, h3, h4, h5⟩ := hi; exact ⟨h1, h2, h3, h4, hidle _ h5⟩
  | relay => obtain ⟨h1, rest, h2, h3⟩ := hi; exact ⟨h1, rest, h2, h3.imp id fun h => ⟨h.1, by rw [h.2, e]⟩⟩
  | closed => exact hi
  | crash => exact hi

/-- The program writes the next piece; it has received at most what the server has written. -/
theorem up_send {r : List UInt8} {k : Nat} (hi : Up ok hdr R D v ms rsv h port ((r, k) :: c) ph up lq recs t) (hk : t.phase ≠ .relay → t.phase ≠ .closed → k ≤ t.wire.length) :
    Up ok hdr R D v ms rsv h port c ph up (lq ++ r) recs t := by
  obtain ⟨tp, sk, wi, tu, lo⟩ := t
  have hr2 : ∀ later rest, (∀ r k c', (r, k) :: c' = later → 1 ≤ k) → k = 0 → Rest up lq ((r, k) :: c) 0 later rest → Rest up (lq ++ r) c 0 later rest := by
    rintro later rest hl h0 ⟨X, h1, h2, h3⟩
    cases X with
    | nil => have := hl _ _ _ h2; omega
    | cons x X =>
      simp only [List.map_cons, List.cons_append, List.cons.injEq, Prod.mk.injEq] at h2
      obtain ⟨⟨rfl, -⟩, rfl⟩ := h2
      exact ⟨X, fun hx => h1 (by simp [hx]), rfl, by simp [h3]⟩
  have hr3 : ∀ rest, k ≤ 2 → Rest up lq ((r, k) :: c) 2 (D.map (·, 12)) rest → Rest up (lq ++ r) c 2 (D.map (·, 12)) rest := by
    rintro rest h0 ⟨X, h1, h2, h3⟩
    cases X with
    | nil => have := head12 (by simpa using h2); omega
    | cons x X =>
      simp only [List.map_cons, List.cons_append, List.cons.injEq, Prod.mk.injEq] at h2
      obtain ⟨⟨rfl, -⟩, rfl⟩ := h2
      exact ⟨X, fun hx => h1 (by simp [hx]), rfl, by simp [h3]⟩
  have hl2 : ∀ (r : List UInt8) (k : Nat) (c' : List (List UInt8 × Nat)), (r, k) :: c' = R.map (·, 2) ++ D.map (·, 12) → 1 ≤ k := by
    intro r k c' e; have := head2 e; omega
  cases tp with
  | auth buf =>
    obtain ⟨h1, h2, h3, Hr, Gr, hr, gr, h4, h5, h6, h7, h8⟩ := hi
    have h0 : k = 0 := by have := hk (by simp) (by simp); rw [show wi = [] from h1] at this; simpa using this
    refine ⟨h1, h2, h3, Hr, Gr, hr, gr, h4, h5, h6, h7, ?_⟩
    cases ph with
    | connecting => exact ⟨h8.1, hr2 _ _ hl2 h0 h8.2⟩
    | auth l => exact ⟨h8.1, h8.2.1, hr2 _ _ hl2 h0 h8.2.2⟩
    | relay => exact ⟨h8.1, hr2 _ _ hl2 h0 h8.2⟩
    | closed => trivial
  | greet p f =>
    obtain ⟨h1, h2, w, rest, h3, h4, h5, h6⟩ := hi
    have h0 : k = 0 := by have := hk (by simp) (by simp); rw [show wi = [] from h1] at this; simpa using this
    exact ⟨h1, h2, w, rest, h3, h4, h5, h6.imp id fun h => ⟨h.1, hr2 _ _ hl2 h0 h.2⟩⟩
  | greetRsp u =>
    obtain ⟨h1, h2, h3, h4, h5⟩ := hi
    refine ⟨h1, h2, h3, h4, h5.imp id fun h => ?_⟩
    exfalso
    have e := congrArg List.length h3
    have hu := List.length_pos_iff.mpr h2
    have := hk (by simp) (by simp)
    have := head2 h.2.2.2
    simp at e this hk; omega
  | request p f =>
    obtain ⟨h1, h2, w, rest, h3, h4, h5, h6⟩ := hi
    have h0 : k ≤ 2 := by have := hk (by simp) (by simp); rw [show wi = [5, 0] from h1] at this; simpa using this
    exact ⟨h1, h2, w, rest, h3, h4, h5, h6.imp id fun h => ⟨h.1, hr3 _ h0 h.2⟩⟩
  | connect a =>
    obtain ⟨h0, h1, h2, h3, h5⟩ := hi
    refine ⟨h0, h1, h2, h3, h5.imp id fun h => ?_⟩
    exfalso
    have hkk := hk (by simp) (by simp)
    rw [show wi = [5, 0] from h1] at hkk
    have := head12 h.2.2.2
    simp at hkk; omega
  | reply u =>
    obtain ⟨h1, ⟨ip, h2⟩, h3, h4, h5⟩ := hi
    refine ⟨h1, ⟨ip, h2⟩, h3, h4, h5.imp id fun h => ?_⟩
    exfalso
    have e := congrArg List.length h2
    have hu := List.length_pos_iff.mpr h1
    have hkk := hk (by simp) (by simp)
    have := head12 h.2.2.2
    simp only [List.length_append, answers, established_length] at e
    simp at e hkk; omega
  | relay =>
    obtain ⟨h1, rest, h2, h3⟩ := hi
    exact ⟨h1, rest, h2, h3.imp id fun h => ⟨h.1, by simp [h.2]⟩⟩
  | closed => exact hi
  | crash => exact hi

theorem up_established (hi : Up ok hdr R D v ms rsv h port c .connecting up lq recs t) (hne : hdr ≠ []) :
    Up ok hdr R D v ms rsv h port c (.auth hdr) up lq recs t := by
  have no : ∀ l, ¬ Idle .connecting up lq c l := by
    rintro l (h | h)
    · cases h
    · cases h.1
  obtain ⟨tp, sk, wi, tu, lo⟩ := t
  cases tp with
  | auth buf =>
    obtain ⟨h1, h2, h3, Hr, Gr, hr, gr, h4, h5, h6, h7, h8⟩ := hi
    exact ⟨h1, h2, h3, Hr, Gr, hr, gr, h4, h5, h6, h7, hne, h8.1, h8.2⟩
  | greet p f => obtain ⟨-, -, w, rest, -, -, -, h | h⟩ := hi; cases h; cases h.1
  | greetRsp u => obtain ⟨h1, h2, h3, h4, h5⟩ := hi; exact absurd h5 (no _)
  | request p f => obtain ⟨-, -, w, rest, -, -, -, h | h⟩ := hi; cases h; cases h.1
  | connect a => obtain ⟨h1, h2, h3, h4, h5⟩ := hi; exact absurd h5 (no _)
  | reply u => obtain ⟨h1, h2, h3, h4, h5⟩ := hi; exact absurd h5 (no _)
  | relay => obtain ⟨-, rest, -, h | h⟩ := hi; cases h; cases h.1
  | closed => exact hi
  | crash => exact hi

theorem up_header {left : List UInt8} (hi : Up ok hdr R D v ms rsv h port c (.auth left) up lq recs t) (n : Nat) :
    Up ok hdr R D v ms rsv h port c (if (left.drop (n + 1)).isEmpty then .relay else .auth (left.drop (n + 1))) up lq (recs ++ [left.take (n + 1)]) t := by
  have no : ∀ l, ¬ Idle (.auth left) up lq c l := by
    rintro l (h | h)
    · cases h
    · cases h.1
  obtain ⟨tp, sk, wi, tu, lo⟩ := t
  cases tp with
  | auth buf =>
    obtain ⟨h1, h2, h3, Hr, Gr, hr, gr, h4, h5, h6, h7, h8, h9, h10⟩ := hi
    subst h9
    obtain rfl := h7 h8
    refine ⟨h1, h2, h3, Hr ++ [hr.take (n + 1)], [], hr.drop (n + 1), gr, by simp [h4], ?_, h6, fun _ => rfl, ?_⟩
    · rw [← h5]; simp
    · split
      · next he =>
        split at he
        · cases he
        · cases he
      · next left' he =>
        split at he
        · cases he
        · next hn => cases he; exact ⟨by simpa using hn, rfl, h10⟩
      · next he =>
        split at he
        · next hn => exact ⟨by simpa using hn, h10⟩
        · cases he
      · trivial
  | greet p f => obtain ⟨-, -, w, rest, -, -, -, h | h⟩ := hi; cases h; cases h.1
  | greetRsp u => obtain ⟨h1, h2, h3, h4, h5⟩ := hi; exact absurd h5 (no _)
  | request p f => obtain ⟨-, -, w, rest, -, -, -, h | h⟩ := hi; cases h; cases h.1
  | connect a => obtain ⟨h1, h2, h3, h4, h5⟩ := hi; exact absurd h5 (no _)
  | reply u => obtain ⟨h1, h2, h3, h4, h5⟩ := hi; exact absurd h5 (no _)
  | relay => obtain ⟨-, rest, -, h | h⟩ := hi; cases h; cases h.1
  | closed => exact hi
  | crash => exact hi

theorem rest_put {k : Nat} {later : List (List UInt8 × Nat)} {rest : List UInt8} (n : Nat) (hr : Rest up lq c k later rest) :
    ∃ rest', rest = up.take (n + 1) ++ rest' ∧ Rest (up.drop (n + 1)) lq c k later rest' := by
  obtain ⟨X, h1, h2, h3⟩ := hr
  refine ⟨up.drop (n + 1) ++ lq ++ X.flatten, ?_, X, h1, h2, rfl⟩
  rw [h3, ← List.append_assoc, ← List.append_assoc, List.take_append_drop]

theorem up_put (hi : Up ok hdr R D v ms rsv h port c .relay up lq recs t) (hne : up ≠ []) (n : Nat) :
    Up ok hdr R D v ms rsv h port c .relay (up.drop (n + 1)) lq (recs ++ [up.take (n + 1)]) t := by
  have no : ∀ l, ¬ Idle .relay up lq c l := by
    rintro l (h | h)
    · cases h
    · exact hne h.2.1
  obtain ⟨tp, sk, wi, tu, lo⟩ := t
  cases tp with
  | auth buf =>
    obtain ⟨h1, h2, h3, Hr, Gr, hr, gr, h4, h5, h6, h7, h8, h9⟩ := hi
    subst h8
    obtain ⟨gr', e, hr'⟩ := rest_put n h9
    exact ⟨h1, h2, h3, Hr, Gr ++ [up.take (n + 1)], [], gr', by simp [h4], h5, by rw [← h6, e]; simp, fun h => absurd rfl h, rfl, hr'⟩
  | greet p f =>
    obtain ⟨h1, h2, w, rest, h3, h4, h5, h | ⟨-, h6⟩⟩ := hi
    · cases h
    · obtain ⟨rest', e, hr'⟩ := rest_put n h6
      exact ⟨h1, h2, w, rest', h3, h4, by rw [← h5, e]; simp, .inr ⟨rfl, hr'⟩⟩
  | greetRsp u => obtain ⟨h1, h2, h3, h4, h5⟩ := hi; exact absurd h5 (no _)
  | request p f =>
    obtain ⟨h1, h2, w, rest, h3, h4, h5, h | ⟨-, h6⟩⟩ := hi
    · cases h
    · obtain ⟨rest', e, hr'⟩ := rest_put n h6
      exact ⟨h1, h2, w, rest', h3, h4, by rw [← h5, e]; simp, .inr ⟨rfl, hr'⟩⟩
  | connect a => obtain ⟨h1, h2, h3, h4, h5⟩ := hi; exact absurd h5 (no _)
  | reply u => obtain ⟨h1, h2, h3, h4, h5⟩ := hi; exact absurd h5 (no _)
  | relay =>
    obtain ⟨h1, rest, h2, h | ⟨-, h3⟩⟩ := hi
    · cases h
    · refine ⟨h1, up.drop (n + 1) ++ lq ++ (c.map (·.1)).flatten, ?_, .inr ⟨rfl, rfl⟩⟩
      rw [← h2, h3]
      simp only [List.flatten_append, List.flatten_cons, List.flatten_nil, List.append_nil, List.append_assoc]
      rw [← List.append_assoc (up.take _), List.take_append_drop]
  | closed => exact hi
  | crash => exact hi

theorem rest_nil {k : Nat} {later : List (List UInt8 × Nat)} (hr : Rest up lq c k later []) : up = [] ∧ lq = [] ∧ c = later := by
  obtain ⟨X, h1, h2, h3⟩ := hr
  have h3 := h3.symm
  rw [List.append_eq_nil_iff, List.append_eq_nil_iff] at h3
  have := flatten_nil h3.2 h1
  subst this
  exact ⟨h3.1.1, h3.1.2, by simpa using h2⟩

theorem up_write (hR : R.flatten = encodeReq 5 1 rsv h port) (hR0 : [] ∉ R) (n : Nat) (hi : Up ok hdr R D v ms rsv h port c ph up lq recs t) :
    Up ok hdr R D v ms rsv h port c ph up lq recs (Serve.step admit t (.write n)) := by
  obtain ⟨tp, sk, wi, tu, lo⟩ := t
  cases tp with
  | greetRsp u =>
    obtain ⟨h1, h2, h3, h4, h5⟩ := hi
    simp only at h1 h3
    subst h1 h4
    simp only [Serve.step]
    split
    · next he =>
      have he : u.drop (n + 1) = [] := by simpa using he
      have ht : u.take (n + 1) = u := by have := List.take_append_drop (n + 1) u; rwa [he, List.append_nil] at this
      rw [ht, h3]
      refine ⟨rfl, rfl, [], encodeReq 5 1 rsv h port, rfl, by simp [metaN], by simp, h5.imp id ?_⟩
      rintro ⟨a1, rfl, rfl, a4⟩
      exact ⟨a1, R, hR0, a4, by simp [hR]⟩
    · next he => exact ⟨rfl, by simpa using he, by simpa using h3, rfl, h5⟩
  | reply u =>
    obtain ⟨h1, ⟨ip, h2⟩, h3, h4, h5⟩ := hi
    simp only at h2 h3
    subst h3 h4
    simp only [Serve.step]
    split
    · next he =>
      have he : u.drop (n + 1) = [] := by simpa using he
      have ht : u.take (n + 1) = u := by have := List.take_append_drop (n + 1) u; rwa [he, List.append_nil] at this
      rw [ht, h2]
      refine ⟨⟨ip, rfl⟩, D.flatten, by simp, h5.imp id ?_⟩
      rintro ⟨a1, rfl, rfl, rfl⟩
      exact ⟨a1, by simp [Function.comp_def]⟩
    · next he => exact ⟨by simpa using he, ⟨ip, by simpa using h2⟩, rfl, rfl, h5⟩
  | _ => exact hi

theorem up_connected (ip : List UInt8) (hi : Up ok hdr R D v ms rsv h port c ph up lq recs t) :
    Up ok hdr R D v ms rsv h port c ph up lq recs (Serve.step admit t (.connected ip)) := by
  obtain ⟨tp, sk, wi, tu, lo⟩ := t
  cases tp with
  | connect a =>
    obtain ⟨h1, h2, h3, h4, h5⟩ := hi
    simp only at h2 h3
    subst h1 h2 h3 h4
    refine ⟨?_, ⟨ip, rfl⟩, rfl, rfl, h5⟩
    intro e
    have := established_length h port ip
    rw [e] at this
    simp at this
  | _ => exact hi

/-- What was written and taken over when the session closes. -/
theorem up_bounds (hi : Up ok hdr R D v ms rsv h port c ph up lq recs t) : (∃ ip, t.wire <+: answers h port ip) ∧ t.up <+: D.flatten := by
  obtain ⟨tp, sk, wi, tu, lo⟩ := t
  cases tp with
  | auth buf => obtain ⟨h1, h2, -⟩ := hi; simp only at h1 h2 ⊢; subst h1 h2; exact ⟨⟨[], List.nil_prefix⟩, List.nil_prefix⟩
  | greet p f => obtain ⟨h1, h2, -⟩ := hi; simp only at h1 h2 ⊢; subst h1 h2; exact ⟨⟨[], List.nil_prefix⟩, List.nil_prefix⟩
  | greetRsp u =>
    obtain ⟨h1, h2, h3, -⟩ := hi
    simp only at h1 h3 ⊢; subst h1
    refine ⟨⟨[], ?_⟩, List.nil_prefix⟩
    rw [answers, ← h3, List.append_assoc]
    exact List.prefix_append _ _
  | request p f => obtain ⟨h1, h2, -⟩ := hi; simp only at h1 h2 ⊢; subst h1 h2; exact ⟨⟨[], List.prefix_append _ _⟩, List.nil_prefix⟩
  | connect a => obtain ⟨-, h1, h2, -⟩ := hi; simp only at h1 h2 ⊢; subst h1 h2; exact ⟨⟨[], List.prefix_append _ _⟩, List.nil_prefix⟩
  | reply u =>
    obtain ⟨-, ⟨ip, h1⟩, h2, -⟩ := hi
    simp only at h1 h2 ⊢; subst h2
    exact ⟨⟨ip, by rw [← h1]; exact List.prefix_append _ _⟩, List.nil_prefix⟩
  | relay =>
    obtain ⟨⟨ip, h1⟩, rest, h2, -⟩ := hi
    simp only at h1 h2 ⊢
    exact ⟨⟨ip, by rw [h1]; exact List.prefix_rfl⟩, by rw [← h2, List.append_assoc]; exact List.prefix_append _ _⟩
  | closed => exact hi.2
  | crash => exact absurd hi id

theorem up_weaken (hi : Up ok hdr R D v ms rsv h port c ph up lq recs t) : Up false hdr R D v ms rsv h port c ph up lq recs t := by
  obtain ⟨tp, sk, wi, tu, lo⟩ := t
  cases tp with
  | closed => exact ⟨rfl, hi.2⟩
  | _ => exact hi

theorem up_fail (hi : Up ok hdr R D v ms rsv h port c ph up lq recs t) (recs' : List (List UInt8)) :
    Up false hdr R D v ms rsv h port c ph up lq recs' (Serve.step admit t .fail) := by
  obtain ⟨h1, h2⟩ := up_bounds hi
  obtain ⟨tp, sk, wi, tu, lo⟩ := t
  cases tp <;> first | exact absurd hi id | exact ⟨rfl, h1, h2⟩

theorem up_refused (hi : Up ok hdr R D v ms rsv h port c ph up lq recs t) :
    Up false hdr R D v ms rsv h port c ph up lq recs (Serve.step admit t .refused) := by
  obtain ⟨h1, h2⟩ := up_bounds hi
  have hw := up_weaken hi
  obtain ⟨tp, sk, wi, tu, lo⟩ := t
  cases tp <;> first | exact hw | exact ⟨rfl, h1, h2⟩

/-- The server reads the first record. -/
theorem up_read (hl36 : hdr.length = 36) (ha : admit hdr = true) (hm : 1 ≤ ms.length ∧ ms.length ≤ 255) (hh : HostOk h) {r : List UInt8}
    {t' : List (List UInt8)} {net : List (List UInt8)} (hs : t.sock = r :: t') (hne : [] ∉ t.sock ++ net)
    (hi : Up ok hdr R D v ms rsv h port c ph up lq (t.sock ++ net) t) :
    Up ok hdr R D v ms rsv h port c ph up lq ((Serve.step admit t .read).sock ++ net) (Serve.step admit t .read) := by
  obtain ⟨tp, sk, wi, tu, lo⟩ := t
  simp only at hs
  subst hs
  have hr : r ≠ [] := fun hx => hne (by simp [hx])
  have hne' : [] ∉ t' ++ net := fun hx => hne (by simp at hx ⊢; exact Or.inr hx)
  cases tp with
  | auth buf =>
    obtain ⟨h1, h2, h3, Hr, Gr, hrest, grest, h4, h5, h6, h7, h8⟩ := hi
    simp only at h1 h2
    subst h1 h2
    have hlen := congrArg List.length h5
    simp only [List.length_append, hl36] at hlen
    cases Hr with
    | nil =>
      exfalso
      have hg : Gr ≠ [] := by rw [List.nil_append] at h4; rw [← h4]; simp
      have : hrest = [] := by
        by_cases hx : hrest = []
        · exact hx
        · exact absurd (h7 hx) hg
      subst this
      simp at hlen; omega
    | cons r' Hr =>
      simp only [List.cons_append, List.cons.injEq] at h4
      obtain ⟨rfl, h4⟩ := h4
      simp only [List.flatten_cons, List.length_append] at hlen
      have e1 : r.length ≤ metaN - buf.length := by simp [metaN]; omega
      have e2 : leave (metaN - buf.length) r t' = t' := by simp [leave, e1]
      have e3 : r.take (metaN - buf.length) = r := List.take_of_length_le e1
      simp only [Serve.step, readAuth, e2, e3]
      split
      · next hlt =>
        simp only [Serve.hdrLen] at hlt
        refine ⟨rfl, rfl, hlt, Hr, Gr, hrest, grest, h4, by simpa using h5, h6, h7, h8⟩
      · next hge =>
        simp only [Serve.hdrLen, List.length_append] at hge
        have h0 : Hr.flatten = [] := List.eq_nil_of_length_eq_zero (by omega)
        have h0h : hrest = [] := List.eq_nil_of_length_eq_zero (by omega)
        have hnH : [] ∉ Hr := fun hx => hne' (by rw [h4]; simp [hx])
        have h0' := flatten_nil h0 hnH
        subst h0' h0h
        have hb : buf ++ r = hdr := by simpa using h5
        rw [hb, if_pos ha]
        refine ⟨rfl, rfl, [], grest, rfl, by simp [metaN], ?_, ?_⟩
        · simp only [List.nil_append] at h4 ⊢; rw [h4, h6]
        · have hx : hdr ≠ [] := by intro e; rw [e] at hl36; simp at hl36
          cases ph with
          | connecting => exact absurd h8.1.symm hx
          | auth l => exact absurd h8.2.1.symm h8.1
          | relay => exact .inr ⟨rfl, h8.2⟩
          | closed => exact .inl rfl
  | greet p free =>
    obtain ⟨h1, h2, w, rest, h3, h4, h5, h6⟩ := hi
    simp only at h1 h2
    subst h1 h2
    have hlen := congrArg List.length h5
    simp only [List.length_append, encodeGreeting, List.length_cons, List.cons_append, List.flatten_cons] at hlen
    have e1 : r.length ≤ free := by omega
    have e0 : free ≠ 0 := by omega
    have e2 : leave free r t' = t' := by simp [leave, e1]
    have e3 : r.take free = r := List.take_of_length_le e1
    have h5' : w ++ r ++ ((t' ++ net).flatten ++ rest) = encodeGreeting v ms := by rw [← h5]; simp
    have hf : feed p1Byte P1.init (w ++ r) = feed p1Byte p r := by rw [feed_append, h3]
    simp only [Serve.step, readGreet, e2, e3, if_neg e0]
    by_cases hrest : (t' ++ net).flatten ++ rest = []
    · rw [List.append_eq_nil_iff] at hrest
      obtain ⟨hx, rfl⟩ := hrest
      have hnil := flatten_nil hx hne'
      obtain ⟨q, hq⟩ := feed_greet_full v ms hm
      have hwr : w ++ r = encodeGreeting v ms := by rw [hx] at h5'; simpa using h5'
      rw [← hwr, hf] at hq
      have hu := used_exact hr hq (fun a u hau hu => by
        obtain ⟨p', hp'⟩ := feed_greet_part (w := w ++ a) (u := u) hm (by rw [List.append_assoc, ← hau, hwr]) hu
        rw [feed_append, h3] at hp'
        exact ⟨p', hp'⟩) []
      rw [List.append_nil] at hu
      rw [hq]
      exact ⟨rfl, by simp [p1Reply], by simp [p1Reply], hnil, h6.imp id fun h => ⟨h.1, rest_nil h.2⟩⟩
    · obtain ⟨p', hp'⟩ := feed_greet_part (w := w ++ r) (u := (t' ++ net).flatten ++ rest) hm h5' hrest
      rw [← hf, hp']
      exact ⟨rfl, rfl, w ++ r, rest, hp', by simp [h4]; omega, by rw [← h5']; simp, h6⟩
  | request p free =>
    obtain ⟨h1, h2, w, rest, h3, h4, h5, h6⟩ := hi
    simp only at h1 h2
    subst h1 h2
    have hlen := congrArg List.length h5
    have hle := req_len (rsv := rsv) (port := port) hh
    simp only [List.length_append, List.cons_append, List.flatten_cons] at hlen
    have e1 : r.length ≤ free := by omega
    have e0 : free ≠ 0 := by omega
    have e2 : leave free r t' = t' := by simp [leave, e1]
    have e3 : r.take free = r := List.take_of_length_le e1
    have h5' : w ++ r ++ ((t' ++ net).flatten ++ rest) = encodeReq 5 1 rsv h port := by rw [← h5]; simp
    have hf : feed p2Byte P2.init (w ++ r) = feed p2Byte p r := by rw [feed_append, h3]
    simp only [Serve.step, readRequest, e2, e3, if_neg e0]
    by_cases hrest : (t' ++ net).flatten ++ rest = []
    · rw [List.append_eq_nil_iff] at hrest
      obtain ⟨hx, rfl⟩ := hrest
      have hnil := flatten_nil hx hne'
      obtain ⟨q, hq, hqa⟩ := feed_req_full rsv h port hh
      have hwr : w ++ r = encodeReq 5 1 rsv h port := by rw [hx] at h5'; simpa using h5'
      rw [← hwr, hf] at hq
      rw [hq]
      simp only [hqa]
      have hI : Idle ph up lq c (D.map (·, 12)) := h6.imp id fun h => ⟨h.1, rest_nil h.2⟩
      cases h <;> exact ⟨by simp [wanted], rfl, rfl, hnil, hI⟩
    · obtain ⟨p', hp'⟩ := feed_req_part (w := w ++ r) (u := (t' ++ net).flatten ++ rest) hh h5' hrest
      rw [← hf, hp']
      exact ⟨rfl, rfl, w ++ r, rest, hp', by simp [h4]; omega, by rw [← h5']; simp, h6⟩
  | greetRsp u => obtain ⟨-, -, -, h4, -⟩ := hi; simp at h4
  | connect a => obtain ⟨-, -, -, h4, -⟩ := hi; simp at h4
  | reply u => obtain ⟨-, -, -, h4, -⟩ := hi; simp at h4
  | relay =>
    obtain ⟨h1, rest, h2, h3⟩ := hi
    exact ⟨h1, rest, by simpa [Serve.step] using h2, h3⟩
  | closed => exact hi
  | crash => exact hi

/-- The server's session writes and takes over more and more. -/
theorem serve_grow (t : Serve.St) (e : Serve.Ev) : t.wire <+: (Serve.step admit t e).wire ∧ t.up <+: (Serve.step admit t e).up := by
  obtain ⟨tp, sk, wi, tu, lo⟩ := t
  cases e with
  | arrive r => exact ⟨List.prefix_rfl, List.prefix_rfl⟩
  | connected ip => cases tp <;> exact ⟨List.prefix_rfl, List.prefix_rfl⟩
  | refused => cases tp <;> exact ⟨List.prefix_rfl, List.prefix_rfl⟩
  | fail => simp only [Serve.step]; split <;> exact ⟨List.prefix_rfl, List.prefix_rfl⟩
  | write n => cases tp <;> simp [Serve.step]
  | read =>
    cases sk with
    | nil => exact ⟨List.prefix_rfl, List.prefix_rfl⟩
    | cons r sk =>
      cases tp <;> simp only [Serve.step, readAuth, readGreet, readRequest] <;> (repeat' split) <;> simp

/-- Only the two answers are written. -/
theorem serve_wire (hi : Up ok hdr R D v ms rsv h port c ph up lq recs t) (e : Serve.Ev) (hw : ∃ ip, t.wire = answers h port ip) :
    (Serve.step admit t e).wire = t.wire := by
  obtain ⟨ip, hw⟩ := hw
  have hl : t.wire.length = 12 := by rw [hw, answers, List.length_append, established_length]; rfl
  obtain ⟨tp, sk, wi, tu, lo⟩ := t
  cases e with
  | arrive r => rfl
  | connected ip => cases tp <;> rfl
  | refused => cases tp <;> rfl
  | fail => simp only [Serve.step]; split <;> rfl
  | write n =>
    cases tp with
    | greetRsp u =>
      obtain ⟨-, -, h3, -⟩ := hi
      have := congrArg List.length h3
      simp at this hl; omega
    | reply u =>
      obtain ⟨h1, ⟨ip', h3⟩, -⟩ := hi
      have e := congrArg List.length h3
      have hu := List.length_pos_iff.mpr h1
      simp only [List.length_append, answers, established_length] at e hl
      simp at e; omega
    | _ => rfl
  | read =>
    cases sk with
    | nil => rfl
    | cons r sk =>
      cases tp <;> simp only [Serve.step, readAuth, readGreet, readRequest] <;> (repeat' split) <;> rfl

theorem leave_ne {n : Nat} {r : List UInt8} {l : List (List UInt8)} (hl : [] ∉ l) : [] ∉ leave n r l := by
  unfold leave
  split
  · exact hl
  · simp only [List.mem_cons, not_or]
    exact ⟨fun e => by have := congrArg List.length e; simp at this; omega, hl⟩

theorem read_ne (t : Serve.St) (hn : [] ∉ t.sock) : [] ∉ (Serve.step admit t .read).sock := by
  obtain ⟨tp, sk, wi, tu, lo⟩ := t
  cases sk with
  | nil => exact hn
  | cons r sk =>
    have hs : [] ∉ sk := fun hx => hn (by simp [hx])
    cases tp <;> simp only [Serve.step, readAuth, readGreet, readRequest] <;> (repeat' split) <;> first | exact hn | exact hs | exact leave_ne hs

end

/-- What holds of the whole path; `c` is the rest of the program's script, `ds` what the destination has written. -/
structure J (ok : Bool) (hdr : List UInt8) (R D : List (List UInt8)) (v : UInt8) (ms : List UInt8) (rsv : UInt8) (h : Host) (port : Nat)
    (c : List (List UInt8 × Nat)) (ds : List UInt8) (s : St) : Prop where
  open_ : ok = true → s.ph ≠ .closed
  left : ∀ l, s.ph = .auth l → l ≠ []
  up : Up ok hdr R D v ms rsv h port c s.ph s.up s.lq (s.srv.sock ++ s.net) s.srv
  ne : [] ∉ s.srv.sock ++ s.net
  acc : s.srv.up = s.dst ++ s.sup ++ s.pend
  down : ∃ R2, s.got ++ s.down ++ s.back = s.srv.wire ++ R2 ∧ R2 ++ s.sdn ++ s.dq = ds ∧
    ((R2 = [] ∧ s.sdn = []) ∨ ∃ ip, s.srv.wire = answers h port ip)

section
variable {ok : Bool} {key : List UInt8} {admit : List UInt8 → Bool} {hdr : List UInt8} {R D : List (List UInt8)} {v : UInt8} {ms : List UInt8} {rsv : UInt8}
  {h : Host} {port : Nat} {c : List (List UInt8 × Nat)} {ds : List UInt8} {s : St}

/-- Events of the server's session keep what holds of the accounts. -/
theorem j_serve {ok' : Bool} (hj : J ok hdr R D v ms rsv h port c ds s) (e : Serve.Ev) (net : List (List UInt8)) (ho : ok' = true → ok = true)
    (hu : Up ok' hdr R D v ms rsv h port c s.ph s.up s.lq ((Serve.step admit s.srv e).sock ++ net) (Serve.step admit s.srv e))
    (hn : [] ∉ (Serve.step admit s.srv e).sock ++ net) :
    J ok' hdr R D v ms rsv h port c ds { serve admit s e with net := net } := by
  refine ⟨fun h => hj.open_ (ho h), hj.left, hu, hn, ?_, ?_⟩
  · obtain ⟨x, hx⟩ := (serve_grow (admit := admit) s.srv e).2
    simp only [serve]
    rw [← hx, hj.acc]
    simp
  · obtain ⟨R2, h1, h2, h3⟩ := hj.down
    simp only [serve]
    refine ⟨R2, ?_, h2, ?_⟩
    · rcases h3 with ⟨rfl, -⟩ | hw
      · obtain ⟨x, hx⟩ := (serve_grow (admit := admit) s.srv e).1
        rw [← hx, ← List.append_assoc, h1]; simp
      · rw [serve_wire hj.up e hw]; simpa using h1
    · rcases h3 with h3 | hw
      · exact .inl h3
      · right; rw [serve_wire hj.up e hw]; exact hw

theorem open_room (hm : ms.length ≤ 255) (hj : J true hdr R D v ms rsv h port c ds s) (h1 : s.ph ≠ .relay) : s.up.length < 12288 := by
  obtain ⟨ho, -, hi, -, -, -⟩ := hj
  have ho := ho rfl
  have key : ∀ k later grest Gr, (Gr : List (List UInt8)).flatten ++ grest = encodeGreeting v ms → Rest s.up s.lq c k later grest → s.up.length < 12288 := by
    rintro k later grest Gr hg ⟨X, -, -, h3⟩
    have e := congrArg List.length hg
    rw [h3] at e
    simp [encodeGreeting] at e; omega
  have no : ∀ l, ¬ Idle s.ph s.up s.lq c l := by
    rintro l (h | h)
    · exact ho h
    · exact h1 h.1
  revert hi ho h1 no key
  generalize s.ph = ph
  generalize s.up = up
  generalize s.lq = lq
  generalize s.srv = t
  intro h1 hi ho key no
  obtain ⟨tp, sk, wi, tu, lo⟩ := t
  cases tp with
  | auth buf =>
    obtain ⟨-, -, -, Hr, Gr, hr, gr, -, -, h6, -, h8⟩ := hi
    cases ph with
    | connecting => exact key _ _ _ _ h6 h8.2
    | auth l => exact key _ _ _ _ h6 h8.2.2
    | relay => exact absurd rfl h1
    | closed => exact absurd rfl ho
  | greet p f => obtain ⟨-, -, w, rest, -, -, -, h | h⟩ := hi; exact absurd h ho; exact absurd h.1 h1
  | greetRsp u => obtain ⟨_, _, _, _, h5⟩ := hi; exact absurd h5 (no _)
  | request p f => obtain ⟨-, -, w, rest, -, -, -, h | h⟩ := hi; exact absurd h ho; exact absurd h.1 h1
  | connect a => obtain ⟨_, _, _, _, h5⟩ := hi; exact absurd h5 (no _)
  | reply u => obtain ⟨_, _, _, _, h5⟩ := hi; exact absurd h5 (no _)
  | relay => obtain ⟨-, rest, -, h | h⟩ := hi; exact absurd h ho; exact absurd h.1 h1
  | closed => cases hi.1
  | crash => exact absurd hi id

/-- The conditions on key, greeting and request. -/
structure Cond (key : List UInt8) (admit : List UInt8 → Bool) (hd : List UInt8) (R : List (List UInt8)) (ms : List UInt8) (rsv : UInt8) (h : Host)
    (port : Nat) : Prop where
  hdr : Auth.clientHeader key = hd
  len : hd.length = 36
  adm : admit hd = true
  met : 1 ≤ ms.length ∧ ms.length ≤ 255
  host : HostOk h
  req : R.flatten = encodeReq 5 1 rsv h port
  ne : [] ∉ R

/-- All events but the program's and the destination's. -/
theorem j_step (hc : Cond key admit hdr R ms rsv h port) (hj : J ok hdr R D v ms rsv h port c ds s) (e : Ev) (ho : e.outside = false) :
    J (ok && !e.failure) hdr R D v ms rsv h port c ds (step key admit s e) := by
  have hw : ∀ b, (ok && b) = true → ok = true := fun b hb => by simp at hb; exact hb.1
  cases e with
  | send r => cases ho
  | dest r => cases ho
  | take n =>
    simp only [Ev.failure, Bool.not_false, Bool.and_true, step, take]
    split
    · exact hj
    · exact ⟨hj.open_, hj.left, up_move (by simp) hj.up, hj.ne, hj.acc, hj.down⟩
    · next hn1 hn2 =>
      split
      · next hf =>
        refine ⟨?_, fun l hl => (by cases hl), up_close hj.up _ _ _, hj.ne, hj.acc, hj.down⟩
        rintro rfl
        have := open_room hc.met.2 hj (by simpa using hn2)
        simp [cap] at hf; omega
      · exact ⟨hj.open_, hj.left, up_move (by simp) hj.up, hj.ne, hj.acc, hj.down⟩
  | established =>
    simp only [Ev.failure, Bool.not_false, Bool.and_true, step]
    split
    · next hp =>
      have hx : hdr ≠ [] := fun e => by have := hc.len; rw [e] at this; cases this
      refine ⟨fun _ => by simp, fun l hl => (by cases hl; rw [hc.hdr]; exact hx), ?_, hj.ne, hj.acc, hj.down⟩
      have hu := hj.up
      rw [hp] at hu
      rw [hc.hdr]
      exact up_established hu hx
    · exact hj
  | header n =>
    simp only [Ev.failure, Bool.not_false, Bool.and_true, step, header]
    split
    · next left hp =>
      have hu := hj.up
      rw [hp] at hu
      have hu' := up_header hu n
      refine ⟨fun _ => by dsimp only; split <;> simp, ?_, by rw [← List.append_assoc]; exact hu', ?_, hj.acc, hj.down⟩
      · intro l hl
        dsimp only at hl
        split at hl
        · cases hl
        · next hn => cases hl; simpa using hn
      · have h1 := hj.ne
        have h2 := hj.left _ hp
        simp only [List.mem_append, not_or] at h1
        simp [h1, h2]
    · exact hj
  | put n =>
    simp only [Ev.failure, Bool.not_false, Bool.and_true, step, put]
    split
    · next hp =>
      have hu := hj.up
      rw [hp.1] at hu
      have hu' := up_put hu hp.2 n
      refine ⟨hj.open_, hj.left, by rw [← List.append_assoc, hp.1]; exact hu', ?_, hj.acc, hj.down⟩
      have := hj.ne
      have h2 := hp.2
      simp only [List.mem_append, not_or] at this
      simp [this, h2]
    · exact hj
  | deliver =>
    simp only [Ev.failure, Bool.not_false, Bool.and_true, step]
    split
    · exact hj
    · next r t hn =>
      refine j_serve hj _ _ id ?_ ?_
      · have hu := hj.up; rw [hn] at hu
        simp only [Serve.step, List.append_assoc, List.singleton_append]; exact hu
      · have hu := hj.ne; rw [hn] at hu; simpa [Serve.step] using hu
  | read =>
    simp only [Ev.failure, Bool.not_false, Bool.and_true, step]
    have hn1 : [] ∉ s.srv.sock := fun hx => hj.ne (by simp [hx])
    have hn2 : [] ∉ s.net := fun hx => hj.ne (by simp [hx])
    refine j_serve hj _ s.net id ?_ ?_
    · rcases hs : s.srv.sock with _ | ⟨r, t⟩
      · have : Serve.step admit s.srv .read = s.srv := by simp [Serve.step, hs]
        rw [this, hs]; have hu := hj.up; rwa [hs] at hu
      · exact up_read hc.len hc.adm hc.met hc.host hs hj.ne hj.up
    · have := read_ne (admit := admit) s.srv hn1
      simp only [List.mem_append, not_or]; exact ⟨this, hn2⟩
  | write n =>
    simp only [Ev.failure, Bool.not_false, Bool.and_true, step]
    have hs : (Serve.step admit s.srv (.write n)).sock = s.srv.sock := by simp only [Serve.step]; split <;> rfl
    refine j_serve hj _ s.net id ?_ ?_
    · rw [hs]; exact up_write hc.req hc.ne n hj.up
    · rw [hs]; exact hj.ne
  | connected ip =>
    simp only [Ev.failure, Bool.not_false, Bool.and_true, step]
    have hs : (Serve.step admit s.srv (.connected ip)).sock = s.srv.sock := by simp only [Serve.step]; split <;> rfl
    refine j_serve hj _ s.net id ?_ ?_
    · rw [hs]; exact up_connected ip hj.up
    · rw [hs]; exact hj.ne
  | fetch n =>
    simp only [Ev.failure, Bool.not_false, Bool.and_true, step]
    split
    · exact ⟨hj.open_, hj.left, hj.up, hj.ne, by simp [hj.acc], hj.down⟩
    · exact hj
  | out n =>
    simp only [Ev.failure, Bool.not_false, Bool.and_true, step]
    split
    · refine ⟨hj.open_, hj.left, hj.up, hj.ne, ?_, hj.down⟩
      rw [hj.acc]
      simp only [List.append_assoc]
      rw [← List.append_assoc (s.sup.take _), List.take_append_drop]
    · exact hj
  | dtake n =>
    simp only [Ev.failure, Bool.not_false, Bool.and_true, step]
    split
    · next hp =>
      refine ⟨hj.open_, hj.left, hj.up, hj.ne, hj.acc, ?_⟩
      obtain ⟨R2, h1, h2, -⟩ := hj.down
      refine ⟨R2, h1, ?_, .inr ?_⟩
      · rw [← h2]; simp
      · have hu := hj.up; unfold Up at hu; rw [hp] at hu; exact hu.1
    · exact hj
  | dput n =>
    simp only [Ev.failure, Bool.not_false, Bool.and_true, step]
    split
    · next hp =>
      refine ⟨hj.open_, hj.left, hj.up, hj.ne, hj.acc, ?_⟩
      obtain ⟨R2, h1, h2, -⟩ := hj.down
      refine ⟨R2 ++ s.sdn.take (n + 1), ?_, ?_, .inr ?_⟩
      · dsimp only; rw [← List.append_assoc, h1]; simp
      · dsimp only; rw [List.append_assoc R2, List.take_append_drop, h2]
      · have hu := hj.up; unfold Up at hu; rw [hp] at hu; exact hu.1
    · exact hj
  | cback n =>
    simp only [Ev.failure, Bool.not_false, Bool.and_true, step]
    split
    · refine ⟨hj.open_, hj.left, hj.up, hj.ne, hj.acc, ?_⟩
      obtain ⟨R2, h1, h2, h3⟩ := hj.down
      exact ⟨R2, by rw [← h1]; simp, h2, h3⟩
    · exact hj
  | cout n =>
    simp only [Ev.failure, Bool.not_false, Bool.and_true, step]
    split
    · refine ⟨hj.open_, hj.left, hj.up, hj.ne, hj.acc, ?_⟩
      obtain ⟨R2, h1, h2, h3⟩ := hj.down
      refine ⟨R2, ?_, h2, h3⟩
      rw [← h1]
      simp only [List.append_assoc]
      rw [← List.append_assoc (s.down.take _), List.take_append_drop]
    · exact hj
  | cfail =>
    simp only [Ev.failure, Bool.not_true, Bool.and_false, step]
    exact ⟨fun h => (by cases h), fun l hl => (by cases hl), up_weaken (up_close hj.up _ _ _), hj.ne, hj.acc, hj.down⟩
  | sfail =>
    simp only [Ev.failure, Bool.not_true, Bool.and_false, step]
    have hs : (Serve.step admit s.srv .fail).sock = s.srv.sock := by simp only [Serve.step]; split <;> rfl
    refine j_serve hj _ s.net (fun h => (by cases h)) ?_ ?_
    · exact up_fail hj.up _
    · rw [hs]; exact hj.ne
  | refused =>
    simp only [Ev.failure, Bool.not_true, Bool.and_false, step]
    have hs : (Serve.step admit s.srv .refused).sock = s.srv.sock := by simp only [Serve.step]; split <;> rfl
    refine j_serve hj _ s.net (fun h => (by cases h)) ?_ ?_
    · rw [hs]; exact up_refused hj.up
    · rw [hs]; exact hj.ne

theorem j_dest (hj : J ok hdr R D v ms rsv h port c ds s) (r : List UInt8) : J ok hdr R D v ms rsv h port c (ds ++ r) (step key admit s (.dest r)) := by
  refine ⟨hj.open_, hj.left, hj.up, hj.ne, hj.acc, ?_⟩
  obtain ⟨R2, h1, h2, h3⟩ := hj.down
  exact ⟨R2, h1, by simp [step, ← h2], h3⟩

theorem j_send {r : List UInt8} {k : Nat} (hj : J ok hdr R D v ms rsv h port ((r, k) :: c) ds s) (hk : k ≤ s.got.length) :
    J ok hdr R D v ms rsv h port c ds (step key admit s (.send r)) := by
  refine ⟨hj.open_, hj.left, up_send hj.up ?_, hj.ne, hj.acc, hj.down⟩
  intro h1 h2
  obtain ⟨R2, e1, e2, e3⟩ := hj.down
  have hR : R2 = [] := by
    rcases e3 with e3 | ⟨ip, e3⟩
    · exact e3.1
    · exfalso
      have hu := hj.up
      have hl : s.srv.wire.length = 12 := by rw [e3, answers, List.length_append, established_length]; rfl
      unfold Up at hu
      split at hu
      · rw [hu.1] at hl; cases hl
      · rw [hu.1] at hl; cases hl
      · have := congrArg List.length hu.2.2.1; simp at this; omega
      · rw [hu.1] at hl; cases hl
      · rw [hu.2.1] at hl; cases hl
      · obtain ⟨hx, ⟨ip', hy⟩, -⟩ := hu
        have e := congrArg List.length hy
        have := List.length_pos_iff.mpr hx
        simp only [List.length_append, answers, established_length] at e
        simp at e; omega
      · exact h1 (by assumption)
      · exact h2 (by assumption)
      · exact hu
  subst hR
  have := congrArg List.length e1
  show k ≤ s.srv.wire.length
  simp at this; omega

/-- All histories. -/
theorem j_play (hc : Cond key admit hdr R ms rsv h port) {es : List Ev} {c' : List (List UInt8 × Nat)} {s' : St}
    (hj : J ok hdr R D v ms rsv h port c ds s) (hp : play key admit c s es = some (c', s')) :
    J (ok && es.all (fun e => !e.failure)) hdr R D v ms rsv h port c' (ds ++ offered es) s' := by
  induction es generalizing ok c s ds with
  | nil => simp only [play, Option.some.injEq, Prod.mk.injEq] at hp; obtain ⟨rfl, rfl⟩ := hp; simpa [offered] using hj
  | cons e es ih =>
    by_cases ho : e.outside = true
    · cases e <;> try cases ho
      · next r =>
        cases c with
        | nil => simp [play] at hp
        | cons x c =>
          obtain ⟨r', k⟩ := x
          simp only [play] at hp
          split at hp
          · next hk =>
            obtain ⟨rfl, hk⟩ := hk
            have := ih (j_send hj hk) hp
            simpa [Ev.failure, offered] using this
          · cases hp
      · next r =>
        have := ih (j_dest hj r) (by simpa [play] using hp)
        simpa [Ev.failure, offered] using this
    · have ho : e.outside = false := by simpa using ho
      have hp' : play key admit c (step key admit s e) es = some (c', s') := by
        cases e with
        | send r => cases ho
        | _ => simpa [play] using hp
      have := ih (j_step hc hj e ho) hp'
      have ho' : offered (e :: es) = offered es := by
        cases e with
        | dest r => cases ho
        | _ => rfl
      rw [ho']
      simpa [Bool.and_assoc] using this

theorem play_suffix {es : List Ev} {c' : List (List UInt8 × Nat)} {s' : St} (hp : play key admit c s es = some (c', s')) : c' <:+ c := by
  induction es generalizing c s with
  | nil => simp only [play, Option.some.injEq, Prod.mk.injEq] at hp; rw [hp.1]; exact List.suffix_rfl
  | cons e es ih =>
    cases e <;> try exact ih (by simpa [play] using hp)
    next r =>
      cases c with
      | nil => simp [play] at hp
      | cons x c =>
        simp only [play] at hp
        split at hp
        · exact (ih hp).trans (List.suffix_cons _ _)
        · cases hp

theorem j_init {G : List (List UInt8)} (hG : G.flatten = encodeGreeting v ms) (hG0 : [] ∉ G) :
    J true hdr R D v ms rsv h port (script G R D) [] init := by
  refine ⟨by simp [init], by simp [init], ?_, by simp [init, Serve.init], rfl, [], rfl, rfl, .inl ⟨rfl, rfl⟩⟩
  exact ⟨rfl, rfl, by simp, [], [], hdr, encodeGreeting v ms, rfl, by simp, by simp, fun _ => rfl, rfl, G, hG0, by simp [script], by simp [init, hG]⟩

end

/-- Work left in the server's session. -/
def phaseWork : Serve.Phase → Nat
  | .auth _ => 80
  | .greet _ _ => 70
  | .greetRsp u => 61 + 3 * u.length
  | .request _ _ => 60
  | .connect _ => 50
  | .reply u => 1 + 3 * u.length
  | _ => 0

/-- Work left in the client's session. -/
def clientWork : CPhase → Nat
  | .connecting => 217
  | .auth l => 6 * l.length
  | _ => 0

/-- Work left for the two hosts and the network: every byte counts by how far it has to go, and so does every step of the two sessions. -/
def work (s : St) : Nat :=
  7 * s.lq.length + 6 * s.up.length + 5 * s.net.flatten.length + 4 * s.srv.sock.flatten.length + 2 * s.pend.length + s.sup.length +
  4 * s.dq.length + 3 * s.sdn.length + 2 * s.back.length + s.down.length + clientWork s.ph + phaseWork s.srv.phase

theorem leave_less {n : Nat} {r : List UInt8} {l : List (List UInt8)} (hn : 0 < n) (hr : r ≠ []) :
    (leave n r l).flatten.length < (r :: l).flatten.length := by
  have := List.length_pos_iff.mpr hr
  unfold leave
  split <;> simp <;> omega

theorem established_le (a : Action) (ip : List UInt8) : (established a ip).length ≤ 10 := by
  cases a <;> simp [established, p2Reply, leStore]

theorem serve_work {admit : List UInt8 → Bool} (t : Serve.St) (e : Serve.Ev) (he : e = .read ∨ (∃ n, e = .write n) ∨ ∃ ip, e = .connected ip)
    (hn : [] ∉ t.sock) (hb : ∀ b, t.phase = .auth b → b.length < 36) (hr : ∀ u, t.phase = .reply u ∨ t.phase = .greetRsp u → u ≠ []) :
    Serve.step admit t e = t ∨
    4 * (Serve.step admit t e).sock.flatten.length + phaseWork (Serve.step admit t e).phase + 2 * ((Serve.step admit t e).up.drop t.up.length).length +
      2 * ((Serve.step admit t e).wire.drop t.wire.length).length < 4 * t.sock.flatten.length + phaseWork t.phase := by
  obtain ⟨tp, sk, wi, tu, lo⟩ := t
  rcases he with rfl | ⟨n, rfl⟩ | ⟨ip, rfl⟩
  · cases sk with
    | nil => exact .inl rfl
    | cons r sk =>
      have hrn : r ≠ [] := fun hx => hn (by simp [hx])
      have hrl := List.length_pos_iff.mpr hrn
      cases tp with
      | auth b =>
        have hb := hb b rfl
        have hl := leave_less (l := sk) (n := metaN - b.length) (by simp [metaN]; omega) hrn
        right
        simp only [Serve.step, readAuth]
        repeat' split
        all_goals simp only [phaseWork, List.drop_length, List.length_nil]; omega
      | greet p f =>
        right
        simp only [Serve.step, readGreet]
        split
        · simp [phaseWork]
        · next hf =>
          have hl := leave_less (l := sk) (n := f) (by omega) hrn
          repeat' split
          all_goals simp only [phaseWork, List.drop_length, List.length_nil, p1Reply, List.length_cons]; omega
      | request p f =>
        right
        simp only [Serve.step, readRequest]
        split
        · simp [phaseWork]
        · next hf =>
          have hl := leave_less (l := sk) (n := f) (by omega) hrn
          repeat' split
          all_goals simp only [phaseWork, List.drop_length, List.length_nil]; omega
      | relay =>
        right
        simp [Serve.step, phaseWork]; omega
      | _ => exact .inl rfl
  · cases tp with
    | greetRsp u =>
      have hu := List.length_pos_iff.mpr (hr u (.inr rfl))
      right
      simp only [Serve.step]
      split
      · simp [phaseWork]; omega
      · simp [phaseWork]; omega
    | reply u =>
      have hu := List.length_pos_iff.mpr (hr u (.inl rfl))
      right
      simp only [Serve.step]
      split
      · simp [phaseWork]; omega
      · simp [phaseWork]; omega
    | _ => exact .inl rfl
  · cases tp with
    | connect a =>
      right
      have := established_le a ip
      simp [Serve.step, phaseWork]; omega
    | _ => exact .inl rfl

theorem take_nil {l : List UInt8} {k : Nat} (e : l.take k = []) : l.drop k = l := by
  have := List.take_append_drop k l
  rwa [e, List.nil_append] at this

section
variable {ok : Bool} {key : List UInt8} {admit : List UInt8 → Bool} {hdr : List UInt8} {R D : List (List UInt8)} {v : UInt8} {ms : List UInt8} {rsv : UInt8}
  {h : Host} {port : Nat} {c : List (List UInt8 × Nat)} {ds : List UInt8} {s : St}

theorem serve_event (hj : J ok hdr R D v ms rsv h port c ds s) (e : Serve.Ev) (he : e = .read ∨ (∃ n, e = .write n) ∨ ∃ ip, e = .connected ip)
    (hne : serve admit s e ≠ s) : work (serve admit s e) < work s := by
  have hu := hj.up
  have hn : [] ∉ s.srv.sock := fun hx => hj.ne (by simp [hx])
  have hb : ∀ b, s.srv.phase = .auth b → b.length < 36 := by
    intro b hb; unfold Up at hu; rw [hb] at hu; exact hu.2.2.1
  have hr : ∀ u, s.srv.phase = .reply u ∨ s.srv.phase = .greetRsp u → u ≠ [] := by
    rintro u (hb | hb) <;> unfold Up at hu <;> rw [hb] at hu
    · exact hu.1
    · exact hu.2.1
  rcases serve_work (admit := admit) s.srv e he hn hb hr with h1 | h1
  · exact absurd (by simp [serve, h1]) hne
  · simp only [serve, work, List.length_append]
    omega

/-- Whatever the two hosts and the network do, there is less to do afterwards. -/
theorem work_step (hc : Cond key admit hdr R ms rsv h port) (hj : J ok hdr R D v ms rsv h port c ds s) (e : Ev) (ho : e.outside = false)
    (hf : e.failure = false) (hne : step key admit s e ≠ s) : work (step key admit s e) < work s := by
  have hmove : ∀ (l : List UInt8) (k : Nat), (l.take k).length + (l.drop k).length = l.length := by
    intro l k; rw [← List.length_append, List.take_append_drop]
  cases e with
  | send r => cases ho
  | dest r => cases ho
  | cfail => cases hf
  | sfail => cases hf
  | refused => cases hf
  | take n =>
    have key : ∀ k, ({ s with up := s.up ++ s.lq.take k, lq := s.lq.drop k } : St) ≠ s →
        work { s with up := s.up ++ s.lq.take k, lq := s.lq.drop k } < work s := by
      intro k hx
      have h1 := hmove s.lq k
      have h2 : 0 < (s.lq.take k).length := by
        rw [List.length_pos_iff]
        intro e
        apply hx
        rw [e, take_nil e, List.append_nil]
      simp only [work, List.length_append]; omega
    simp only [step, take] at hne ⊢
    split at hne
    · exact absurd rfl hne
    · next hp => exact key _ hne
    · split at hne
      · next hp =>
        rw [if_pos hp]
        have : 0 < clientWork s.ph := by
          cases hph : s.ph with
          | connecting => simp [clientWork]
          | auth l => have := List.length_pos_iff.mpr (hj.left l hph); simp only [clientWork]; omega
          | relay => simp_all
          | closed => simp_all
        simp only [work, show clientWork .closed = 0 from rfl]
        omega
      · next hp => rw [if_neg hp]; exact key _ hne
  | established =>
    simp only [step] at hne ⊢
    split at hne
    · next hp =>
      rw [if_pos hp]
      simp only [work, hp, clientWork, hc.hdr, hc.len]
      omega
    · exact absurd rfl hne
  | header n =>
    simp only [step, header] at hne ⊢
    split at hne
    · next l hp =>
      have h1 := hmove l (n + 1)
      have h2 := List.length_pos_iff.mpr (hj.left l hp)
      have h3 : 0 < (l.take (n + 1)).length := by simp; omega
      have h4 : clientWork (if (l.drop (n + 1)).isEmpty then .relay else .auth (l.drop (n + 1))) = 6 * (l.drop (n + 1)).length := by
        split
        · next hd => rw [List.isEmpty_iff] at hd; rw [hd]; rfl
        · rfl
      have h5 : clientWork (.auth l) = 6 * l.length := rfl
      simp only [work, hp, h4, h5, List.flatten_append, List.flatten_cons, List.flatten_nil, List.append_nil, List.length_append]
      omega
    · exact absurd rfl hne
  | put n =>
    simp only [step, put] at hne ⊢
    split at hne
    · next hp =>
      rw [if_pos hp]
      have h1 := hmove s.up (n + 1)
      have h2 := List.length_pos_iff.mpr hp.2
      have h3 : 0 < (s.up.take (n + 1)).length := by simp; omega
      simp only [work, List.flatten_append, List.flatten_cons, List.flatten_nil, List.append_nil, List.length_append]
      omega
    · exact absurd rfl hne
  | deliver =>
    simp only [step] at hne ⊢
    split at hne
    · exact absurd rfl hne
    · next r t hp =>
      have h2 : r ≠ [] := fun hx => hj.ne (by rw [hp, hx]; simp)
      have h2 := List.length_pos_iff.mpr h2
      simp [work, serve, Serve.step, hp]
      omega
  | read => exact serve_event hj _ (.inl rfl) hne
  | write n => exact serve_event hj _ (.inr (.inl ⟨n, rfl⟩)) hne
  | connected ip => exact serve_event hj _ (.inr (.inr ⟨ip, rfl⟩)) hne
  | fetch n =>
    simp only [step] at hne ⊢
    split at hne
    · next hp =>
      rw [if_pos hp]
      have h1 := hmove s.pend (min (n + 1) (cap - s.sup.length))
      have h2 : 0 < (s.pend.take (min (n + 1) (cap - s.sup.length))).length := by
        rw [List.length_pos_iff]
        intro e
        apply hne
        rw [e, take_nil e, List.append_nil]
      simp only [work, List.length_append]; omega
    · exact absurd rfl hne
  | out n =>
    simp only [step] at hne ⊢
    split at hne
    · next hp =>
      rw [if_pos hp]
      have h1 := hmove s.sup (n + 1)
      have h2 : 0 < (s.sup.take (n + 1)).length := by
        rw [List.length_pos_iff]
        intro e
        apply hne
        rw [e, take_nil e, List.append_nil]
      simp only [work]; omega
    · exact absurd rfl hne
  | dtake n =>
    simp only [step] at hne ⊢
    split at hne
    · next hp =>
      rw [if_pos hp]
      have h1 := hmove s.dq (min (n + 1) (cap - s.sdn.length))
      have h2 : 0 < (s.dq.take (min (n + 1) (cap - s.sdn.length))).length := by
        rw [List.length_pos_iff]
        intro e
        apply hne
        rw [e, take_nil e, List.append_nil]
      simp only [work, List.length_append]; omega
    · exact absurd rfl hne
  | dput n =>
    simp only [step] at hne ⊢
    split at hne
    · next hp =>
      rw [if_pos hp]
      have h1 := hmove s.sdn (n + 1)
      have h2 : 0 < (s.sdn.take (n + 1)).length := by
        rw [List.length_pos_iff]
        intro e
        apply hne
        rw [e, take_nil e, List.append_nil]
      simp only [work, List.length_append]; omega
    · exact absurd rfl hne
  | cback n =>
    simp only [step] at hne ⊢
    split at hne
    · next hp =>
      rw [if_pos hp]
      have h1 := hmove s.back (min (n + 1) (cap - s.down.length))
      have h2 : 0 < (s.back.take (min (n + 1) (cap - s.down.length))).length := by
        rw [List.length_pos_iff]
        intro e
        apply hne
        rw [e, take_nil e, List.append_nil]
      simp only [work, List.length_append]; omega
    · exact absurd rfl hne
  | cout n =>
    simp only [step] at hne ⊢
    split at hne
    · next hp =>
      rw [if_pos hp]
      have h1 := hmove s.down (n + 1)
      have h2 : 0 < (s.down.take (n + 1)).length := by
        rw [List.length_pos_iff]
        intro e
        apply hne
        rw [e, take_nil e, List.append_nil]
      simp only [work]; omega
    · exact absurd rfl hne

end

end Verif.Path
