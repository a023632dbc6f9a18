import Verif.Model.Meta
/-
Property C20: buffer appends never overflow.
-/
namespace Verif.Meta

/-- The cursors are ordered and inside the buffer. -/
def Ok (m : Buf) : Prop := m.pos ≤ m.last ∧ m.last ≤ m.data.length

/-- The unread content of a buffer as a queue of bytes of bounded room; what each operation means on it. `room` is what can still be
appended before clearing. -/
structure Content where
  bytes : List UInt8
  room : Nat

/-- Content of a buffer. -/
def content (m : Buf) : Content := ⟨(m.data.take m.last).drop m.pos, m.data.length - m.last⟩

/-- Meaning of the operations; `cap` is the size of the buffer. -/
def specStep (cap : Nat) (c : Content) : Op → Content
  | .append bs => if bs.length ≤ c.room then ⟨c.bytes ++ bs, c.room - bs.length⟩ else c
  | .recv bs => ⟨c.bytes ++ bs.take c.room, c.room - (bs.take c.room).length⟩
  | .consume n => ⟨c.bytes.drop n, c.room⟩
  | .clear => ⟨[], cap⟩

theorem store_ok {d : List UInt8} {a : Nat} {bs : List UInt8} (h : a + bs.length ≤ d.length) :
    ∃ d', store d a bs = some d' ∧ d'.length = d.length ∧ d'.take (a + bs.length) = d.take a ++ bs ∧
      (∀ i, i < a ∨ a + bs.length ≤ i → d'[i]? = d[i]?) := by
  refine ⟨d.take a ++ bs ++ d.drop (a + bs.length), by simp [store, h], ?_, ?_, ?_⟩
  · simp; omega
  · have : (d.take a ++ bs).length = a + bs.length := by simp; omega
    rw [← this, List.take_left]
  · intro i hi
    have hl : (d.take a).length = a := by simp; omega
    rcases hi with hi | hi
    · rw [List.append_assoc, List.getElem?_append_left (by omega), List.getElem?_take_of_lt hi]
    · rw [List.getElem?_append_right (by simp; omega), List.getElem?_drop]
      congr 1
      simp; omega

theorem window_append {d d' : List UInt8} {pos last : Nat} {bs : List UInt8} (h1 : pos ≤ last) (h2 : last ≤ d.length)
    (h : d'.take (last + bs.length) = d.take last ++ bs) :
    (d'.take (last + bs.length)).drop pos = (d.take last).drop pos ++ bs := by
  rw [h, List.drop_append_of_le_length (by simp; omega)]

/-- C20. An append either fails and leaves the buffer unchanged, exactly when the data does not fit in the free space, or appends exactly
the given bytes to the content, touching no other byte. Memory is never overrun. -/
theorem c20_append (m : Buf) (h : Ok m) (bs : List UInt8) :
    (pdata m bs = .fail ∧ (content m).room < bs.length) ∨
    ∃ m', pdata m bs = .ok m' ∧ bs.length ≤ (content m).room ∧ Ok m' ∧ m'.pos = m.pos ∧
      (content m').bytes = (content m).bytes ++ bs ∧ m'.data.length = m.data.length ∧
      ∀ i, i < m.last ∨ m.last + bs.length ≤ i → m'.data[i]? = m.data[i]? := by
  obtain ⟨h1, h2⟩ := h
  unfold pdata getfree content
  by_cases hf : (m.data.length : Int) - m.last ≥ bs.length
  · right
    obtain ⟨d', e1, e2, e3, e4⟩ := store_ok (d := m.data) (a := m.last) (bs := bs) (by omega)
    simp only [hf, if_true, e1]
    refine ⟨_, rfl, by omega, ⟨by simp only; omega, by simp only; omega⟩, rfl, ?_, e2, e4⟩
    exact window_append h1 h2 e3
  · left
    rw [if_neg hf]
    exact ⟨rfl, by dsimp only; omega⟩

/-- Case: three bytes fit behind the two that are there, four do not. -/
example : pdata ⟨[1, 2, 0, 0, 0], 1, 2⟩ [3, 4, 5] = .ok ⟨[1, 2, 3, 4, 5], 1, 5⟩ ∧ pdata ⟨[1, 2, 0, 0, 0], 1, 2⟩ [3, 4, 5, 6] = .fail := by decide

/-- C20. Over any sequence of appends, receives, consumptions and clears: the cursors stay ordered and inside the buffer, memory is
never overrun, and the content is what the operations mean. -/
theorem c20_run : ∀ (ops : List Op) (m : Buf), Ok m →
    ∃ m', run m ops = .ok m' ∧ Ok m' ∧ m'.data.length = m.data.length ∧
      content m' = ops.foldl (specStep m.data.length) (content m)
  | [], m, h => ⟨m, rfl, h, rfl, rfl⟩
  | op :: ops, m, h => by
    have key : ∃ m1, step m op = .ok m1 ∧ Ok m1 ∧ m1.data.length = m.data.length ∧
        content m1 = specStep m.data.length (content m) op := by
      cases op with
      | append bs =>
        rcases c20_append m h bs with ⟨e, hlt⟩ | ⟨m1, e, hle, hok, -, hc, hl, -⟩
        · refine ⟨m, by simp [step, e], h, rfl, ?_⟩
          simp only [specStep]; rw [if_neg (by omega)]
        · refine ⟨m1, by simp [step, e], hok, hl, ?_⟩
          simp only [specStep, hle, if_true]
          have hlast : m1.last = m.last + bs.length := by
            unfold pdata at e
            split at e
            · split at e
              · cases e; rfl
              · cases e
            · cases e
          have hr : (content m1).room = (content m).room - bs.length := by
            simp only [content, hl, hlast]; omega
          rw [← hc, ← hr]
      | recv bs =>
        obtain ⟨h1, h2⟩ := h
        have hr : (getfree m).toNat = (content m).room := by
          simp only [getfree, content]; omega
        have hlen : (bs.take (content m).room).length ≤ m.data.length - m.last := by
          simp only [content, List.length_take]; omega
        obtain ⟨d', e1, e2, e3, e4⟩ := store_ok (d := m.data) (a := m.last) (bs := bs.take (content m).room) (by omega)
        simp only [step, hr, e1]
        refine ⟨_, rfl, ⟨by simp only; omega, by simp only; omega⟩, e2, ?_⟩
        simp only [specStep, content]
        simp only [content] at e3
        rw [window_append h1 h2 e3]
        simp only [Content.mk.injEq, true_and, e2]
        omega
      | consume n =>
        obtain ⟨h1, h2⟩ := h
        refine ⟨_, rfl, ⟨by simp only [getlen]; omega, h2⟩, rfl, ?_⟩
        simp only [specStep, content, getlen]
        simp only [Content.mk.injEq, and_true]
        rw [List.drop_drop]
        have hlen : (m.data.take m.last).length = m.last := by simp; omega
        by_cases hn : n ≤ m.last - m.pos
        · congr 1; omega
        · rw [List.drop_eq_nil_of_le (by rw [hlen]; omega), List.drop_eq_nil_of_le (by rw [hlen]; omega)]
      | clear => exact ⟨_, rfl, ⟨by simp [clr], by simp [clr]⟩, rfl, by simp [content, specStep, clr]⟩
    obtain ⟨m1, s1, s2, s3, s4⟩ := key
    obtain ⟨m2, r1, r2, r3, r4⟩ := c20_run ops m1 s2
    refine ⟨m2, by simp [run, s1, r1], r2, by rw [r3, s3], ?_⟩
    rw [r4, List.foldl_cons, s4, s3]

theorem dumpLoop_ok : ∀ (ms : List Buf) (d : Buf), Ok d → d.pos = 0 → (∀ m ∈ ms, Ok m) →
    d.last + ((ms.map (fun m => (content m).bytes)).flatten).length ≤ d.data.length →
    ∃ d', dumpLoop d ms = .ok d' ∧ Ok d' ∧ d'.pos = 0 ∧
      (content d').bytes = (content d).bytes ++ (ms.map (fun m => (content m).bytes)).flatten
  | [], d, h, h0, _, _ => ⟨d, rfl, h, h0, by simp⟩
  | m :: ms, d, h, h0, hms, hlen => by
    obtain ⟨h1, h2⟩ := h
    simp only [List.map_cons, List.flatten_cons, List.length_append] at hlen
    have hw : window m = (content m).bytes := rfl
    obtain ⟨d', e1, e2, e3, e4⟩ := store_ok (d := d.data) (a := d.last) (bs := window m) (by rw [hw]; omega)
    simp only [dumpLoop, e1]
    obtain ⟨r, r1, r2, r3, r4⟩ := dumpLoop_ok ms { d with data := d', last := d.last + (window m).length }
      ⟨by simp only; omega, by simp only [hw]; rw [e2]; omega⟩ h0 (fun x hx => hms x (by simp [hx]))
      (by simp only [hw]; rw [e2]; omega)
    refine ⟨r, r1, r2, r3, ?_⟩
    rw [r4]
    simp only [content, List.map_cons, List.flatten_cons]
    rw [window_append h1 h2 e3, List.append_assoc]
    rfl

theorem getlens_eq : ∀ (ms : List Buf), (∀ m ∈ ms, Ok m) →
    getlens ms = ((ms.map (fun m => (content m).bytes)).flatten).length
  | [], _ => rfl
  | m :: ms, h => by
    obtain ⟨h1, h2⟩ := h m (by simp)
    have := getlens_eq ms (fun x hx => h x (by simp [hx]))
    simp only [getlens, this, List.map_cons, List.flatten_cons, List.length_append, getlen, content, List.length_drop,
      List.length_take]
    omega

/-- C20. Flattening a chain yields the concatenation of its parts, or fails cleanly when no block is available; it never overruns
the new buffer. -/
theorem c20_dump (poolOk : Bool) (m : Buf) (ms : List Buf) (h : ∀ x ∈ m :: ms, Ok x) :
    (dump poolOk m ms = .fail ∧ poolOk = false) ∨
    ∃ d, dump poolOk m ms = .ok d ∧ Ok d ∧ (content d).bytes = ((m :: ms).map (fun m => (content m).bytes)).flatten := by
  unfold dump
  by_cases hm : ms = []
  · subst hm
    right; exact ⟨m, by simp, h m (by simp), by simp⟩
  · rw [if_neg hm]
    cases poolOk with
    | false => left; simp [alloc]
    | true =>
      right
      simp only [alloc, if_true]
      rw [getlens_eq _ h]
      obtain ⟨d, r1, r2, r3, r4⟩ := dumpLoop_ok (m :: ms)
        ⟨List.replicate ((((m :: ms).map (fun m => (content m).bytes)).flatten).length : Int).toNat 0, 0, 0⟩
        ⟨by simp, by simp⟩ rfl h (by simp only [List.length_replicate]; omega)
      refine ⟨d, r1, r2, ?_⟩
      rw [r4]
      simp [content]

/-- Non-trivial case (`c20_run` and the chain): a full sequence on a six-byte buffer, and a chain of three. -/
example : run ⟨[0, 0, 0, 0, 0, 0], 0, 0⟩ [.append [1, 2, 3], .consume 2, .append [4, 5, 6, 7], .recv [8, 9], .append [10]] =
      .ok ⟨[1, 2, 3, 8, 9, 10], 2, 6⟩ ∧
    dump true ⟨[1, 2], 1, 2⟩ [⟨[3], 0, 1⟩, ⟨[4, 5], 0, 2⟩] = .ok ⟨[2, 3, 4, 5], 0, 4⟩ := by decide

/-- C20. A run has a result only if every operation in it had one: nothing is skipped. -/
theorem c20_run_steps (a b : List Op) (m r : Buf) (h : run m (a ++ b) = .ok r) : ∃ m', run m a = .ok m' ∧ run m' b = .ok r := by
  induction a generalizing m with
  | nil => exact ⟨m, rfl, h⟩
  | cons op a ih =>
    simp only [List.cons_append, run] at h ⊢
    split at h
    · exact ih _ h
    · rename_i hne
      cases hs : step m op with
      | ok m' => exact absurd hs (hne m')
      | _ => rw [hs] at h; cases h

/-- C20. What fails, fails the run. -/
theorem c20_run_fails (op : Op) (ops : List Op) (m : Buf) (h : ∀ m', step m op ≠ .ok m') : run m (op :: ops) = step m op := by
  rw [run]
  split
  · rename_i m' hm; exact absurd hm (h m')
  · rfl

end Verif.Meta
