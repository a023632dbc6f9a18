import Verif.Model.Hold
/-
Helper lemmas for C109: every call that gets a result brings the session closer to its end.
-/
namespace Verif.Hold
open Verif Verif.S5 Verif.Serve

/-! ### The automata -/

/-- Bytes after which the greeting has ended at the latest. -/
def g1 (s : P1) : Nat :=
  if s.state = 0 then 258 else if s.state = 1 then 257 else 1 + (255 - s.methodsCnt.toNat)

/-- Bytes after which the request has ended at the latest. -/
def g2 (s : P2) : Nat :=
  if s.state = 0 then 263 else if s.state = 1 then 262 else if s.state = 2 then 261 else if s.state = 3 then 260
  else if s.state = 6 then 259 else if s.state = 8 then 2 else if s.state = 9 then 1 else 3 + (255 - s.addrCnt.toNat)

theorem g1_pos (s : P1) : 1 ≤ g1 s := by unfold g1; (repeat' split) <;> omega

theorem g2_pos (s : P2) : 1 ≤ g2 s := by unfold g2; (repeat' split) <;> omega

theorem g1_init : g1 P1.init = 258 := rfl

theorem g2_init : g2 P2.init = 263 := rfl

theorem succ_toNat (c : UInt8) (h : c.toNat < 255) : (c + 1).toNat = c.toNat + 1 := by
  rw [UInt8.toNat_add]
  have : (1 : UInt8).toNat = 1 := rfl
  omega

theorem p1Byte_cont {s s' : P1} {b : UInt8} (hs : s.state ≤ 2) (h : p1Byte s b = .cont s') : s'.state ≤ 2 ∧ g1 s' + 1 ≤ g1 s := by
  unfold p1Byte VERSION METHODN METHOD at h
  split at h
  · next h0 => cases h; simp [g1, h0]
  · split at h
    · next h0 h1 => cases h; simp [g1, h1]
    · split at h
      · next h0 h1 h2 =>
        split at h
        · next hc =>
          dsimp only at h
          split at h
          · cases h
          · cases h
            have := succ_toNat s.methodsCnt hc
            simp only [g1, h2]
            simp
            omega
        · cases h
      · omega

theorem feed1_cont {s s' : P1} (bs : List UInt8) (hs : s.state ≤ 2) (h : feed p1Byte s bs = .cont s') : s'.state ≤ 2 ∧ g1 s' + bs.length ≤ g1 s := by
  induction bs generalizing s with
  | nil => simp only [feed] at h; cases h; exact ⟨hs, by simp⟩
  | cons b bs ih =>
    simp only [feed] at h
    split at h
    · next s1 h1 =>
      obtain ⟨a1, a2⟩ := p1Byte_cont hs h1
      obtain ⟨b1, b2⟩ := ih a1 h
      exact ⟨b1, by simp; omega⟩
    · cases h

theorem storeAddr_cont {s s' : P2} {b n : UInt8} (h : storeAddr s b n = .cont s') (h7 : s.state = 4 ∨ s.state = 5 ∨ s.state = 7) :
    s'.state ≤ 9 ∧ g2 s' + 1 ≤ g2 s ∧ s'.addr.length = s.addr.length := by
  have hg : g2 s = 3 + (255 - s.addrCnt.toNat) := by rcases h7 with h | h | h <;> simp [g2, h]
  unfold storeAddr PORT at h
  split at h
  · next hc =>
    dsimp only at h
    split at h
    · cases h
      refine ⟨by simp, ?_, by simp⟩
      rw [hg]; simp [g2]
    · cases h
      have := succ_toNat s.addrCnt hc
      refine ⟨by dsimp only; omega, ?_, by simp⟩
      rw [hg]
      have : g2 { s with addr := s.addr.set s.addrCnt.toNat b, addrCnt := s.addrCnt + 1 } = 3 + (255 - (s.addrCnt + 1).toNat) := by
        rcases h7 with h | h | h <;> simp [g2, h]
      rw [this]; omega
  · cases h

theorem storeAddr_stop {s : P2} {b n : UInt8} {r : P2Res} (h : storeAddr s b n = .stop r) : r = .oob := by
  unfold storeAddr at h
  split at h
  · dsimp only at h; split at h <;> cases h
  · cases h; rfl

theorem p2Byte_cont {s s' : P2} {b : UInt8} (hs : s.state ≤ 9) (h : p2Byte s b = .cont s') :
    s'.state ≤ 9 ∧ g2 s' + 1 ≤ g2 s ∧ s'.addr.length = s.addr.length := by
  unfold p2Byte VER CMD RSV TYP TYP_V4 TYP_V6 TYP_DOMAINN TYP_DOMAIN PORT END at h
  by_cases h0 : s.state = 0
  · simp only [h0, if_true] at h; cases h; simp [g2, h0]
  by_cases h1 : s.state = 1
  · simp [h1] at h; subst h; simp [g2, h1]
  by_cases h2 : s.state = 2
  · simp [h2] at h; subst h; simp [g2, h2]
  by_cases h3 : s.state = 3
  · simp only [h3, if_true] at h
    simp only [show ¬ (3 = 0) by decide, show ¬ (3 = 1) by decide, show ¬ (3 = 2) by decide, if_false] at h
    split at h
    · cases h; simp [g2, h3]
    · split at h
      · cases h; simp [g2, h3]
      · split at h
        · cases h; simp [g2, h3]
        · cases h
  by_cases h4 : s.state = 4
  · simp only [h4, show ¬ (4 = 0) by decide, show ¬ (4 = 1) by decide, show ¬ (4 = 2) by decide, show ¬ (4 = 3) by decide, if_false, if_true] at h
    exact storeAddr_cont h (.inl h4)
  by_cases h5 : s.state = 5
  · simp only [h5, show ¬ (5 = 0) by decide, show ¬ (5 = 1) by decide, show ¬ (5 = 2) by decide, show ¬ (5 = 3) by decide, show ¬ (5 = 4) by decide, if_false, if_true] at h
    exact storeAddr_cont h (.inr (.inl h5))
  by_cases h6 : s.state = 6
  · simp [h6] at h; subst h; simp [g2, h6]; omega
  by_cases h7 : s.state = 7
  · simp only [h7, show ¬ (7 = 0) by decide, show ¬ (7 = 1) by decide, show ¬ (7 = 2) by decide, show ¬ (7 = 3) by decide, show ¬ (7 = 4) by decide,
      show ¬ (7 = 5) by decide, show ¬ (7 = 6) by decide, if_false, if_true] at h
    exact storeAddr_cont h (.inr (.inr h7))
  by_cases h8 : s.state = 8
  · simp [h8] at h; subst h; simp [g2, h8]
  · have h9 : s.state = 9 := by omega
    simp [h9] at h
    unfold p2End at h
    split at h <;> cases h

theorem p2Byte_accept {s q : P2} {b : UInt8} (h : p2Byte s b = .stop (.accept q)) : q.addr.length = s.addr.length := by
  unfold p2Byte at h
  split at h
  · cases h
  split at h
  · cases h
  split at h
  · cases h
  split at h
  · dsimp only at h
    repeat' split at h
    all_goals cases h
  split at h
  · exact absurd (storeAddr_stop h) (by simp)
  split at h
  · exact absurd (storeAddr_stop h) (by simp)
  split at h
  · cases h
  split at h
  · exact absurd (storeAddr_stop h) (by simp)
  split at h
  · cases h
  split at h
  · unfold p2End at h
    split at h <;> cases h
    rfl
  · cases h

theorem feed2_cont {s s' : P2} (bs : List UInt8) (hs : s.state ≤ 9) (h : feed p2Byte s bs = .cont s') :
    s'.state ≤ 9 ∧ g2 s' + bs.length ≤ g2 s ∧ s'.addr.length = s.addr.length := by
  induction bs generalizing s with
  | nil => simp only [feed] at h; cases h; exact ⟨hs, by simp, rfl⟩
  | cons b bs ih =>
    simp only [feed] at h
    split at h
    · next s1 h1 =>
      obtain ⟨a1, a2, a3⟩ := p2Byte_cont hs h1
      obtain ⟨b1, b2, b3⟩ := ih a1 h
      exact ⟨b1, by simp; omega, b3.trans a3⟩
    · cases h

theorem feed2_accept {s q : P2} (bs : List UInt8) (hs : s.state ≤ 9) (h : feed p2Byte s bs = .stop (.accept q)) : q.addr.length = s.addr.length := by
  induction bs generalizing s with
  | nil => simp [feed] at h
  | cons b bs ih =>
    simp only [feed] at h
    split at h
    · next s1 h1 =>
      obtain ⟨a1, a2, a3⟩ := p2Byte_cont hs h1
      exact (ih a1 h).trans a3
    · next r h1 => cases h; exact p2Byte_accept h1

/-! ### Lengths of names -/

theorem cstr_length {l n : List UInt8} (h : cstr l = some n) : n.length < l.length := by
  induction l generalizing n with
  | nil => simp [cstr] at h
  | cons b bs ih =>
    unfold cstr at h
    split at h
    · cases h; simp
    · cases hc : cstr bs with
      | none => simp [hc] at h
      | some m =>
        simp only [hc, Option.map_some, Option.some.injEq] at h
        subst h
        have := ih hc
        simp; omega

theorem host2qname_length (l st out q : List UInt8) (h : Dns.host2qname l st out = some q) : q.length ≤ out.length + st.length + l.length + 2 := by
  induction l generalizing st out with
  | nil =>
    simp only [Dns.host2qname, Option.some.injEq] at h
    subst h
    split <;> simp [Dns.putLabel] <;> omega
  | cons c r ih =>
    simp only [Dns.host2qname] at h
    split at h
    · have := ih _ _ h
      simp [Dns.putLabel] at this ⊢
      omega
    · split at h
      · have := ih _ _ h
        simp at this ⊢
        omega
      · cases h

theorem want_le {n : List UInt8} (h : n.length ≤ 254) : want n ≤ 272 := by
  unfold want Dns.qnameLen
  split
  · next q hq => have := host2qname_length _ _ _ _ hq; simp at this; omega
  · omega

/-! ### The session -/

/-- Destinations that can be connected to. -/
def Dest : Action → Prop
  | .connect4 _ _ _ => True
  | .resolve n _ _ => n.length ≤ 254
  | _ => False

/-- A state before the relay as the program can be in. -/
def Good (x : X) : Prop :=
  ([] ∉ x.s.sock) ∧
  match x.sub with
  | .shake _ => x.s.phase = .auth []
  | .main =>
    match x.s.phase with
    | .auth buf => buf.length < 36
    | .greet p _ => p.state ≤ 2
    | .greetRsp u => u ≠ [] ∧ u.length ≤ 2
    | .request p _ => p.state ≤ 9 ∧ p.addr.length = 255
    | .reply u => u ≠ []
    | _ => False
  | .ask => ∃ n p0 p1, x.s.phase = .connect (.resolve n p0 p1) ∧ n.length ≤ 254
  | .answer got => ∃ n p0 p1, x.s.phase = .connect (.resolve n p0 p1) ∧ n.length ≤ 254 ∧ got.length < want n
  | .conn _ => ∃ a, x.s.phase = .connect a ∧ Dest a

/-- How many calls with a result there can be before the session is over or relays. -/
def left (x : X) : Nat :=
  match x.sub with
  | .shake _ => 844
  | .main =>
    match x.s.phase with
    | .auth buf => 807 + (36 - buf.length)
    | .greet p _ => 549 + g1 p
    | .greetRsp u => 547 + u.length
    | .request p _ => 284 + g2 p
    | .reply u => u.length
    | _ => 0
  | .ask => 284
  | .answer got =>
    match x.s.phase with
    | .connect (.resolve n _ _) => 11 + (want n - got.length)
    | _ => 0
  | .conn _ => 11

theorem Good.left_pos {x : X} (h : Good x) : 1 ≤ left x := by
  obtain ⟨s, u, t⟩ := x
  obtain ⟨-, h⟩ := h
  cases u with
  | shake _ => simp [left]
  | main =>
    obtain ⟨ph, sock, wire, up, lost⟩ := s
    cases ph with
    | auth buf => simp only [left]; omega
    | greet p f => simp only [left]; omega
    | greetRsp u => simp only [left]; omega
    | request p f => simp only [left]; omega
    | reply u => simp only [left]; exact List.length_pos_iff.mpr h
    | connect a => exact h.elim
    | relay => exact h.elim
    | closed => exact h.elim
    | crash => exact h.elim
  | ask => simp [left]
  | answer got => obtain ⟨n, p0, p1, e, -, -⟩ := h; simp only at e; simp only [left, e]; omega
  | conn ip => simp [left]

theorem leave_nonempty (n : Nat) {r : List UInt8} {t : List (List UInt8)} (h : [] ∉ r :: t) : [] ∉ leave n r t := by
  unfold leave
  split
  · exact fun h' => h (by simp [h'])
  · next hl =>
    intro h'
    rcases List.mem_cons.mp h' with h1 | h1
    · have := congrArg List.length h1
      simp at this
      omega
    · exact h (by simp [h1])

/-- Outcome of a step: over, or in a good state with less left. -/
def Next (x : X) (y : X) : Prop := over y.s = true ∨ (Good y ∧ left y < left x)

theorem enter_main (e : Env) {s : St} (h : ∀ a, s.phase ≠ .connect a) : enter e s = ⟨s, .main, none⟩ := by
  unfold enter
  split
  · next e' => exact absurd e' (h _)
  · next e' => exact absurd e' (h _)
  · rfl

theorem receive_next {e : Env} {s : St} {x y : X} (hs : [] ∉ s.sock)
    (hg : match s.phase with
      | .auth buf => buf.length < 36
      | .greet p _ => p.state ≤ 2
      | .greetRsp u => u ≠ [] ∧ u.length ≤ 2
      | .request p _ => p.state ≤ 9 ∧ p.addr.length = 255
      | .reply u => u ≠ []
      | _ => False)
    (hx : left ⟨s, .main, none⟩ = left x) (h : receive e s = some y) : Next x y := by
  obtain ⟨ph, sock, wire, up, lost⟩ := s
  unfold Next
  rw [← hx]
  unfold receive at h
  split at h
  · next buf r t e1 e2 =>
    simp only at e1 e2
    subst e1 e2
    simp only at hg hs
    have hr : r ≠ [] := fun h => hs (by simp [h])
    have hr1 : 1 ≤ r.length := List.length_pos_iff.mpr hr
    cases h
    have hm : metaN = 12288 := rfl
    have hd : hdrLen = 36 := rfl
    simp only [Serve.step, readAuth]
    by_cases hl : (buf ++ List.take (metaN - buf.length) r).length < hdrLen
    · rw [if_pos hl, enter_main e (by simp)]
      refine .inr ⟨⟨leave_nonempty _ hs, hl⟩, ?_⟩
      simp only [left]
      simp only [List.length_append, List.length_take] at hl ⊢
      omega
    · rw [if_neg hl]
      by_cases ha : e.admit (buf ++ List.take (metaN - buf.length) r) = true
      · rw [if_pos ha, enter_main e (by simp)]
        refine .inr ⟨⟨leave_nonempty _ hs, Nat.zero_le 2⟩, ?_⟩
        simp only [left, g1_init]
        omega
      · rw [if_neg ha, enter_main e (by simp)]
        exact .inl rfl
  · next p free r t e1 e2 =>
    simp only at e1 e2
    subst e1 e2
    simp only at hg hs
    have hr : r ≠ [] := fun h => hs (by simp [h])
    have hr1 : 1 ≤ r.length := List.length_pos_iff.mpr hr
    cases h
    simp only [Serve.step, readGreet]
    by_cases hf : free = 0
    · rw [if_pos hf, enter_main e (by simp)]; exact .inl rfl
    · rw [if_neg hf]
      rcases hp : feed p1Byte p (List.take free r) with p' | _ | _ <;> dsimp only
      · obtain ⟨a1, a2⟩ := feed1_cont _ hg hp
        rw [enter_main e (by simp)]
        refine .inr ⟨⟨leave_nonempty _ hs, a1⟩, ?_⟩
        simp only [left, List.length_take] at a2 ⊢
        omega
      · rw [enter_main e (by simp)]
        refine .inr ⟨⟨leave_nonempty _ hs, by simp [p1Reply]⟩, ?_⟩
        have : 1 ≤ g1 p := g1_pos p
        simp only [left, p1Reply, List.length_cons, List.length_nil]
        omega
      · rw [enter_main e (by simp)]; exact .inl rfl
  · next p free r t e1 e2 =>
    simp only at e1 e2
    subst e1 e2
    simp only at hg hs
    have hr : r ≠ [] := fun h => hs (by simp [h])
    have hr1 : 1 ≤ r.length := List.length_pos_iff.mpr hr
    cases h
    simp only [Serve.step, readRequest]
    by_cases hf : free = 0
    · rw [if_pos hf, enter_main e (by simp)]; exact .inl rfl
    · rw [if_neg hf]
      rcases hp : feed p2Byte p (List.take free r) with p' | q | _ | _ <;> dsimp only
      · obtain ⟨a1, a2, a3⟩ := feed2_cont _ hg.1 hp
        rw [enter_main e (by simp)]
        refine .inr ⟨⟨leave_nonempty _ hs, a1, a3.trans hg.2⟩, ?_⟩
        simp only [left, List.length_take] at a2 ⊢
        omega
      · have hl := (feed2_accept _ hg.1 hp).trans hg.2
        have h1 : 1 ≤ g2 p := g2_pos p
        rcases hc : cupAddr q with ⟨ip, p0, p1⟩ | ⟨n, p0, p1⟩ | _ | _ <;> dsimp only
        · right
          simp only [enter]
          exact ⟨⟨leave_nonempty _ hs, _, rfl, trivial⟩, by simp only [left]; omega⟩
        · have hd : n.length ≤ 254 := by
            unfold cupAddr at hc
            split at hc
            · cases hc
            · split at hc
              · split at hc
                · next m hn => cases hc; have := cstr_length hn; omega
                · cases hc
              · cases hc
          have := want_le hd
          right
          simp only [enter]
          cases e.cached n with
          | some ip => exact ⟨⟨leave_nonempty _ hs, _, rfl, hd⟩, by simp only [left]; omega⟩
          | none => exact ⟨⟨leave_nonempty _ hs, n, p0, p1, rfl, hd⟩, by simp only [left]; omega⟩
        · rw [enter_main e (by simp)]; exact .inl rfl
        · rw [enter_main e (by simp)]; exact .inl rfl
      · rw [enter_main e (by simp)]; exact .inl rfl
      · rw [enter_main e (by simp)]; exact .inl rfl
  · cases h

theorem Good.hg {s : St} {t : Option Nat} (h : Good ⟨s, .main, t⟩) :
    match s.phase with
      | .auth buf => buf.length < 36
      | .greet p _ => p.state ≤ 2
      | .greetRsp u => u ≠ [] ∧ u.length ≤ 2
      | .request p _ => p.state ≤ 9 ∧ p.addr.length = 255
      | .reply u => u ≠ []
      | _ => False := h.2

theorem isEmpty_drop {u : List UInt8} {n : Nat} (h : (u.drop n).isEmpty = false) : u.drop n ≠ [] := by
  intro h'
  simp [h'] at h

theorem write_next {e : Env} {s : St} {t : Option Nat} (n : Nat) (hs : [] ∉ s.sock) (h : Good ⟨s, .main, t⟩)
    (hp : (∃ u, s.phase = .greetRsp u) ∨ ∃ u, s.phase = .reply u) :
    Next ⟨s, .main, t⟩ ⟨Serve.step e.admit s (.write n), .main, none⟩ := by
  obtain ⟨ph, sock, wire, up, lost⟩ := s
  have hg := h.hg
  rcases hp with ⟨u, rfl⟩ | ⟨u, rfl⟩ <;> simp only [Serve.step] at hg hs ⊢
  · cases hc : (u.drop (n + 1)).isEmpty
    · have := isEmpty_drop hc
      refine .inr ⟨⟨hs, this, ?_⟩, ?_⟩
      · simp; omega
      · have : 1 ≤ u.length := List.length_pos_iff.mpr hg.1
        simp [left]; omega
    · have : 1 ≤ u.length := List.length_pos_iff.mpr hg.1
      refine .inr ⟨⟨hs, by simp only [if_true]; exact ⟨Nat.zero_le 9, List.length_replicate⟩⟩, ?_⟩
      simp only [if_true, left, g2_init]
      omega
  · cases hc : (u.drop (n + 1)).isEmpty
    · have := isEmpty_drop hc
      refine .inr ⟨⟨hs, this⟩, ?_⟩
      have : 1 ≤ u.length := List.length_pos_iff.mpr hg
      simp [left]; omega
    · exact .inl rfl

theorem established_len {a : Action} (h : Dest a) (ip : List UInt8) : (established a ip).length = 10 := by
  cases a with
  | connect4 q p0 p1 => simp [established, p2Reply, leStore]
  | resolve n p0 p1 => simp [established, p2Reply, leStore]
  | close => exact h.elim
  | oob => exact h.elim

theorem one_next {e : Env} {x y : X} {r : Res} (h : Good x) (ho : one e x r = some y) : Next x y := by
  obtain ⟨s, u, t⟩ := x
  have hs := h.1
  cases r with
  | fail => simp only [one, Option.some.injEq] at ho; subst ho; exact .inl rfl
  | shaken =>
    cases u <;> simp only [one, Option.some.injEq, reduceCtorEq] at ho
    subst ho
    have hp : s.phase = .auth [] := h.2
    refine .inr ⟨⟨hs, by simp only [hp]; simp⟩, by simp [left, hp]⟩
  | rd b bs =>
    cases u <;> simp only [one, reduceCtorEq] at ho
    refine receive_next (s := { s with sock := s.sock ++ [b :: bs] }) ?_ h.hg rfl ho
    simp only [List.mem_append, List.mem_singleton]
    rintro (h' | h')
    · exact hs h'
    · cases h'
  | more =>
    cases u <;> simp only [one, reduceCtorEq] at ho
    exact receive_next hs h.hg rfl ho
  | wr n =>
    cases u <;> simp only [one, reduceCtorEq] at ho
    split at ho
    · next u hp => cases ho; exact write_next n hs h (.inl ⟨u, hp⟩)
    · next u hp => cases ho; exact write_next n hs h (.inr ⟨u, hp⟩)
    · cases ho
  | sent =>
    cases u <;> simp only [one, Option.some.injEq, reduceCtorEq] at ho
    subst ho
    obtain ⟨n, p0, p1, hp, hn⟩ := h.2
    have := want_le hn
    simp only at hp
    have hw : 0 < want n := by unfold want; omega
    refine .inr ⟨⟨hs, n, p0, p1, hp, hn, hw⟩, ?_⟩
    simp only [left, hp, List.length_nil]
    omega
  | dgram b bs =>
    cases u with
    | answer got =>
      obtain ⟨n, p0, p1, hp, hn, hw⟩ := h.2
      have := want_le hn
      simp only at hp
      simp only [one, hp] at ho
      by_cases hl : (got ++ (b :: bs).take (1500 - got.length)).length < want n
      · rw [if_pos hl] at ho
        cases ho
        refine .inr ⟨⟨hs, n, p0, p1, hp, hn, hl⟩, ?_⟩
        simp only [left, hp]
        simp only [List.length_append, List.length_take, List.length_cons] at hl ⊢
        omega
      · rw [if_neg hl] at ho
        cases hj : e.judge n (got ++ (b :: bs).take (1500 - got.length)) with
        | none => rw [hj] at ho; cases ho; exact .inl rfl
        | some ip =>
          rw [hj] at ho
          cases ho
          refine .inr ⟨⟨hs, _, hp, hn⟩, ?_⟩
          simp only [left, hp]
          omega
    | _ => simp [one] at ho
  | conn =>
    cases u with
    | conn ip =>
      obtain ⟨a, hp, hd⟩ := h.2
      simp only at hp
      simp only [one, Option.some.injEq] at ho
      subst ho
      have hl := established_len hd ip
      have hne : established a ip ≠ [] := by intro h'; rw [h'] at hl; simp at hl
      simp only [Serve.step, hp]
      refine .inr ⟨⟨hs, hne⟩, ?_⟩
      simp only [left, hl]
      omega
    | _ => simp [one] at ho
  | refused =>
    cases u with
    | conn ip =>
      obtain ⟨a, hp, hd⟩ := h.2
      simp only at hp
      simp only [one, Option.some.injEq] at ho
      subst ho
      simp only [Serve.step, hp]
      exact .inl rfl
    | _ => simp [one] at ho

theorem Good.not_over {x : X} (h : Good x) : over x.s = false := by
  obtain ⟨s, u, t⟩ := x
  obtain ⟨ph, sock, wire, up, lost⟩ := s
  obtain ⟨-, h⟩ := h
  cases u with
  | shake _ => simp only at h; subst h; rfl
  | main => cases ph <;> first | rfl | exact h.elim
  | ask => obtain ⟨n, p0, p1, e, -⟩ := h; simp only at e; subst e; rfl
  | answer got => obtain ⟨n, p0, p1, e, -⟩ := h; simp only at e; subst e; rfl
  | conn ip => obtain ⟨a, e, -⟩ := h; simp only at e; subst e; rfl

theorem go_over {e : Env} {x : X} (h : over x.s = true) (rs : List Res) : go e x rs = x := by
  cases rs with
  | nil => rfl
  | cons r rs => simp [go, h]

/-- What a handler does: nothing, or it gets closer to the end. -/
theorem go_next {e : Env} {x : X} (h : Good x) (rs : List Res) : go e x rs = x ∨ Next x (go e x rs) := by
  induction rs generalizing x with
  | nil => exact .inl rfl
  | cons r rs ih =>
    simp only [go, h.not_over, Bool.false_eq_true, if_false]
    cases ho : one e x r with
    | none => exact .inl rfl
    | some y =>
      simp only
      right
      rcases one_next h ho with h1 | ⟨h1, h2⟩
      · rw [go_over h1]; exact .inl h1
      · rcases ih h1 with h3 | h3 | ⟨h3, h4⟩
        · rw [h3]; exact .inr ⟨h1, h2⟩
        · exact .inl h3
        · exact .inr ⟨h3, by omega⟩

theorem good_congr {s : St} {u : Sub} {t t' : Option Nat} (h : Good ⟨s, u, t⟩) : Good ⟨s, u, t'⟩ := h

theorem tried_good {s : St} {u : Sub} {t t' : Option Nat} (h : Good ⟨s, u, t⟩) : Good ⟨s, tried u, t'⟩ ∧ left ⟨s, tried u, t'⟩ = left ⟨s, u, t⟩ := by
  cases u <;> exact ⟨h, rfl⟩

theorem tmout_le (u : Sub) : tmout u ≤ 10000 ∧ 5000 ≤ tmout u := by
  cases u with
  | shake b => cases b <;> simp [tmout]
  | _ => simp [tmout]

end Verif.Hold
