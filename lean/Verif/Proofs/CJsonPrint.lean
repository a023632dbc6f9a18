import Verif.Spec.CJsonPrint
import Verif.Proofs.CJsonDoc
/-
Proofs about printing: the printer writes exactly the text of the document, whatever the buffer does.
-/
namespace Verif.CJsonPrint
open Verif.CJson (J)
open Spec

/-- The text so far is `P`, printing goes on behind it, nested `d` deep. `L` is the size of a buffer that cannot grow, `h` the number of blocks held. -/
def At (e : Env) (L h d : Nat) (P : List UInt8) (b : B) : Prop :=
  ∃ rest, b.buf = some (P ++ rest) ∧ (rest ≠ [] ∨ P = []) ∧ b.offset = P.length ∧ b.depth = d ∧ b.held = h ∧
    (e.noalloc = true → (P ++ rest).length = L)

/-- The same, and there is room for `n` bytes and one more. -/
def Room (e : Env) (L h d : Nat) (P : List UInt8) (n : Nat) (b : B) : Prop :=
  ∃ rest, b.buf = some (P ++ rest) ∧ n + 1 ≤ rest.length ∧ b.offset = P.length ∧ b.depth = d ∧ b.held = h ∧
    (e.noalloc = true → (P ++ rest).length = L)

/-- `T` and a zero byte were written behind `P`. -/
def Done (e : Env) (L h d : Nat) (P T : List UInt8) (b : B) : Prop :=
  ∃ rest, b.buf = some (P ++ T ++ 0 :: rest) ∧ (P.length ≤ b.offset ∧ b.offset ≤ (P ++ T).length) ∧ b.depth = d ∧ b.held = h ∧
    (e.noalloc = true → (P ++ T ++ 0 :: rest).length = L) ∧ (e.noalloc = true → (P ++ T).length + 2 ≤ L)

/-- Why printing failed when `N` bytes were wanted. -/
def Fail (e : Env) (L h N : Nat) (b : B) : Prop :=
  release b = h - 1 ∧ (e.noalloc = true → ∃ m, b.buf = some m ∧ m.length = L) ∧
    (2147483647 < N ∨ (if e.noalloc = true then L < N else ∃ k, e.ok k = false))

theorem Fail.mono {e : Env} {L h N N' : Nat} {b : B} (hf : Fail e L h N b) (hn : N ≤ N') : Fail e L h N' b := by
  refine ⟨hf.1, hf.2.1, ?_⟩
  rcases hf.2.2 with h1 | h1
  · exact .inl (by omega)
  · refine .inr ?_
    split at h1
    · rw [if_pos ‹_›]; omega
    · rw [if_neg ‹_›]; exact h1

/-- A step never touches what it must not; if it fails there is a reason, otherwise `G`. -/
def Ens (e : Env) (L h N : Nat) (G : B → Prop) : Res → Prop
  | .fault => False
  | .no b => Fail e L h N b
  | .yes b => G b

theorem Ens.mono {e : Env} {L h N N' : Nat} {G G' : B → Prop} {r : Res} (hr : Ens e L h N G r) (hn : N ≤ N') (hg : ∀ b, G b → G' b) : Ens e L h N' G' r := by
  cases r with
  | fault => exact hr
  | no b => exact Fail.mono hr hn
  | yes b => exact hg b hr

theorem Ens.bind {e : Env} {L h N N1 : Nat} {G G' : B → Prop} {r : Res} {f : B → Res} (hr : Ens e L h N1 G r) (hn : N1 ≤ N) (hf : ∀ b, G b → Ens e L h N G' (f b)) :
    Ens e L h N G' (r.bind f) := by
  cases r with
  | fault => exact hr
  | no b => exact Fail.mono hr hn
  | yes b => exact hf b hr

theorem release_some {b : B} {m : List UInt8} (h : b.buf = some m) : release b = b.held - 1 := by simp [release, h]

theorem ensure_ens {e : Env} {L h d : Nat} {P : List UInt8} {b : B} (hb : At e L h d P b) (n : Nat) :
    Ens e L h (P.length + n + 1) (Room e L h d P n) (ensure e b n) := by
  obtain ⟨rest, h1, h2, h3, h4, h5, h6⟩ := hb
  unfold ensure
  rw [h1]
  dsimp only
  have hlen : (P ++ rest).length = P.length + rest.length := List.length_append
  have hno : Fail e L h (P.length + n + 1) b ∨ P.length + n + 1 ≤ 2147483647 := by
    by_cases hx : P.length + n + 1 ≤ 2147483647
    · exact .inr hx
    · exact .inl ⟨by rw [release_some h1, h5], fun hn => ⟨_, h1, h6 hn⟩, .inl (by omega)⟩
  rw [if_neg]
  · split
    · rcases hno with hno | hno
      · exact hno
      · omega
    · split
      · refine ⟨rest, h1, ?_, h3, h4, h5, h6⟩
        omega
      · split
        · rename_i hna
          refine ⟨by rw [release_some h1, h5], fun hn => ⟨_, h1, h6 hn⟩, .inr ?_⟩
          rw [if_pos hna]
          have := h6 hna
          omega
        · rename_i hna
          split
          · rcases hno with hno | hno
            · exact hno
            · omega
          · split
            · rename_i hs hx hok
              refine ⟨rest ++ (List.range ((if 1073741823 < n + (b.offset + 1) then 2147483647 else (n + (b.offset + 1)) * 2) - (P ++ rest).length)).map (e.junk b.tries),
                ?_, ?_, h3, h4, h5, fun hn => absurd hn hna⟩
              · dsimp only
                unfold resize
                rw [List.take_of_length_le, List.append_assoc]
                split <;> omega
              · rw [List.length_append, List.length_map, List.length_range]
                split <;> omega
            · rename_i hok
              refine ⟨?_, fun hn => absurd hn hna, .inr ?_⟩
              · simp [release, h5]
              · rw [if_neg hna]
                exact ⟨b.tries, by simpa using hok⟩
  · rintro ⟨ha, hc⟩
    rcases h2 with h2 | h2
    · have : rest.length ≠ 0 := fun hz => h2 (List.length_eq_zero_iff.mp hz)
      omega
    · subst h2
      simp only [List.nil_append, List.length_nil] at *
      have : ¬ rest.length ≤ b.offset := by omega
      exact this hc

theorem putAt_room {e : Env} {L h d : Nat} {P : List UInt8} {n : Nat} {b : B} (hb : Room e L h d P n b) (w : List UInt8) (hw : w.length ≤ n + 1) :
    ∃ rest, putAt b 0 w = .yes { b with buf := some (P ++ w ++ rest) } ∧ w.length + rest.length ≥ n + 1 ∧ b.offset = P.length ∧ b.depth = d ∧ b.held = h ∧
      (e.noalloc = true → (P ++ w ++ rest).length = L) := by
  obtain ⟨rest, h1, h2, h3, h4, h5, h6⟩ := hb
  refine ⟨rest.drop w.length, ?_, ?_, h3, h4, h5, ?_⟩
  · unfold putAt
    rw [h1]
    dsimp only
    rw [if_pos (by rw [List.length_append]; omega), h3, Nat.add_zero, List.take_left, List.drop_append, List.drop_of_length_le (by omega),
      List.nil_append, Nat.add_sub_cancel_left]
  · rw [List.length_drop]; omega
  · intro hn
    have := h6 hn
    simp only [List.length_append, List.length_drop] at *
    omega

/-- A step that makes room, writes `w` and a zero byte or not, and goes on behind `w`. -/
theorem write_step {e : Env} {L h d d' : Nat} {P : List UInt8} {b : B} (hb : At e L h d P b) (n : Nat) (w z : List UInt8) (hw : w.length ≤ n)
    (hz : z = [] ∨ z = [0]) (f : B → B) (hf : ∀ b, (f b).buf = b.buf ∧ (f b).offset = b.offset + w.length ∧ (b.depth = d → (f b).depth = d') ∧ (f b).held = b.held) :
    Ens e L h (P.length + n + 1) (At e L h d' (P ++ w)) ((ensure e b n).bind fun b => (putAt b 0 (w ++ z)).bind fun b => .yes (f b)) := by
  refine (ensure_ens hb n).bind (Nat.le_refl _) (fun b1 hr => ?_)
  have hzl : z.length ≤ 1 := by rcases hz with rfl | rfl <;> simp
  obtain ⟨rest, hp, hl, h3, h4, h5, h6⟩ := putAt_room hr (w ++ z) (by rw [List.length_append]; omega)
  rw [hp]
  refine ⟨z ++ rest, ?_, .inl ?_, ?_, ?_, ?_, ?_⟩
  · rw [(hf _).1]; simp
  · intro hnil
    have := congrArg List.length hnil
    simp only [List.length_append, List.length_nil] at this hl
    omega
  · rw [(hf _).2.1, List.length_append]; simp [h3]
  · exact (hf _).2.2.1 h4
  · rw [(hf _).2.2.2]; exact h5
  · intro hn
    have := h6 hn
    simpa using this

theorem arrayOpen_ens {e : Env} {L h d : Nat} {P : List UInt8} {b : B} (hb : At e L h d P b) :
    Ens e L h (P.length + 2) (At e L h (d + 1) (P ++ [0x5B])) (arrayOpen e b) :=
  write_step hb 1 [0x5B] [] (by simp) (.inl rfl) (fun b => { b with offset := b.offset + 1, depth := b.depth + 1 }) (fun b => ⟨rfl, rfl, fun h => by dsimp only; omega, rfl⟩)

theorem objectOpen_ens {e : Env} {L h d : Nat} {P : List UInt8} {b : B} (hb : At e L h d P b) :
    Ens e L h (P.length + (when e.format [10]).length + 3) (At e L h (d + 1) (P ++ 0x7B :: when e.format [10])) (objectOpen e b) := by
  unfold objectOpen
  cases hf : e.format
  · have := write_step hb 2 [0x7B] [] (by simp) (.inl rfl) (fun b => { b with offset := b.offset + 1, depth := b.depth + 1 })
      (d' := d + 1) (fun b => ⟨rfl, rfl, fun h => by dsimp only; omega, rfl⟩)
    simpa [when] using this
  · have := write_step hb 3 [0x7B, 10] [] (by simp) (.inl rfl) (fun b => { b with offset := b.offset + 2, depth := b.depth + 1 })
      (d' := d + 1) (fun b => ⟨rfl, rfl, fun h => by dsimp only; omega, rfl⟩)
    simpa [when] using this

theorem arraySep_ens {e : Env} {L h d : Nat} {P : List UInt8} {b : B} (hb : At e L h d P b) :
    Ens e L h (P.length + (when e.format [0x20]).length + 3) (At e L h d (P ++ 0x2C :: when e.format [0x20])) (arraySep e b) := by
  unfold arraySep
  cases hf : e.format
  · have := write_step hb 2 [0x2C] [0] (by simp) (.inr rfl) (fun b => { b with offset := b.offset + 1 }) (d' := d) (fun b => ⟨rfl, rfl, fun h => h, rfl⟩)
    simpa [when] using this
  · have := write_step hb 3 [0x2C, 0x20] [0] (by simp) (.inr rfl) (fun b => { b with offset := b.offset + 2 }) (d' := d) (fun b => ⟨rfl, rfl, fun h => h, rfl⟩)
    simpa [when] using this

theorem colon_ens {e : Env} {L h d : Nat} {P : List UInt8} {b : B} (hb : At e L h d P b) :
    Ens e L h (P.length + (when e.format [9]).length + 2) (At e L h d (P ++ 0x3A :: when e.format [9])) (colon e b) := by
  unfold colon
  cases hf : e.format
  · have := write_step hb 1 [0x3A] [] (by simp) (.inl rfl) (fun b => { b with offset := b.offset + 1 }) (d' := d) (fun b => ⟨rfl, rfl, fun h => h, rfl⟩)
    simpa [when] using this
  · have := write_step hb 2 [0x3A, 9] [] (by simp) (.inl rfl) (fun b => { b with offset := b.offset + 2 }) (d' := d) (fun b => ⟨rfl, rfl, fun h => h, rfl⟩)
    simpa [when] using this

theorem memberEnd_ens {e : Env} {L h d : Nat} {P : List UInt8} {b : B} (more : Bool) (hb : At e L h d P b) :
    Ens e L h (P.length + (when more [0x2C] ++ when e.format [10]).length + 2) (At e L h d (P ++ (when more [0x2C] ++ when e.format [10]))) (memberEnd e more b) := by
  unfold memberEnd
  have := write_step hb ((if e.format then 1 else 0) + (if more then 1 else 0) + 1) (when more [0x2C] ++ when e.format [10]) [0]
    (by cases e.format <;> cases more <;> simp [when]) (.inr rfl)
    (fun b => { b with offset := b.offset + ((if e.format then 1 else 0) + (if more then 1 else 0)) }) (d' := d)
    (fun b => ⟨rfl, by cases e.format <;> cases more <;> simp [when], fun h => h, rfl⟩)
  refine this.mono ?_ (fun _ h => h)
  cases e.format <;> cases more <;> simp [when]

theorem indent_ens {e : Env} {L h d : Nat} {P : List UInt8} {b : B} (hb : At e L h d P b) :
    Ens e L h (P.length + (tabs e.format d).length + 1) (At e L h d (P ++ tabs e.format d)) (indent e b) := by
  unfold indent
  cases hf : e.format
  · rw [if_neg (by decide)]
    show At e L h d _ b
    simpa [tabs, when] using hb
  · rw [if_pos rfl]
    have hd : b.depth = d := by obtain ⟨_, _, _, _, h4, _⟩ := hb; exact h4
    rw [hd]
    refine (ensure_ens hb d).bind (by simp [tabs, when]) (fun b1 hr => ?_)
    have hd1 : b1.depth = d := by obtain ⟨_, _, _, _, h4, _⟩ := hr; exact h4
    obtain ⟨rest, hp, hl, h3, h4, h5, h6⟩ := putAt_room hr (List.replicate d 9) (by simp)
    rw [hd1, hp]
    refine ⟨rest, ?_, .inl ?_, ?_, h4, h5, ?_⟩
    · simp [tabs, when]
    · rintro rfl
      simp at hl
      omega
    · simp [tabs, when, h3, hd1]
    · simpa [tabs, when] using h6

/-- The last step: room, text, zero byte. -/
theorem finish_step {e : Env} {L h d d' : Nat} {P : List UInt8} {b : B} (hb : At e L h d P b) (n : Nat) (T : List UInt8) (hn : n = T.length + 1)
    (f : B → B) (hf : ∀ b, (f b).buf = b.buf ∧ ((f b).offset = b.offset ∨ (f b).offset = b.offset + T.length) ∧ (b.depth = d → (f b).depth = d') ∧ (f b).held = b.held) :
    Ens e L h (P.length + T.length + 2) (Done e L h d' P T) ((ensure e b n).bind fun b => (putAt b 0 (T ++ [0])).bind fun b => .yes (f b)) := by
  refine (ensure_ens hb n).bind (by omega) (fun b1 hr => ?_)
  obtain ⟨rest, hp, hl, h3, h4, h5, h6⟩ := putAt_room hr (T ++ [0]) (by rw [List.length_append]; simp; omega)
  rw [hp]
  refine ⟨rest, ?_, ?_, (hf _).2.2.1 h4, by rw [(hf _).2.2.2]; exact h5, ?_, ?_⟩
  · rw [(hf _).1]; simp
  · rw [List.length_append, ← h3]
    rcases (hf { b1 with buf := some (P ++ (T ++ [0]) ++ rest) }).2.1 with h | h
    · rw [h]; exact ⟨Nat.le_refl _, Nat.le_add_right _ _⟩
    · rw [h]; exact ⟨Nat.le_add_right _ _, Nat.le_refl _⟩
  · intro hn
    simpa using h6 hn
  · intro hna
    have := h6 hna
    simp only [List.length_append, List.length_cons, List.length_nil] at *
    omega

theorem bind_yes (r : Res) : (r.bind fun b => .yes b) = r := by cases r <;> rfl

theorem printWord_ens {e : Env} {L h d : Nat} {P : List UInt8} {b : B} (hb : At e L h d P b) (w : List UInt8) :
    Ens e L h (P.length + w.length + 2) (Done e L h d P w) (printWord e (w.length + 1) w b) := by
  have := finish_step (d' := d) hb (w.length + 1) w rfl (fun b => b) (fun b => ⟨rfl, .inl rfl, fun h => h, rfl⟩)
  unfold printWord
  simpa only [bind_yes] using this

theorem arrayClose_ens {e : Env} {L h d : Nat} {P : List UInt8} {b : B} (hb : At e L h (d + 1) P b) :
    Ens e L h (P.length + 3) (Done e L h d P [0x5D]) (arrayClose e b) :=
  finish_step (d' := d) hb 2 [0x5D] rfl (fun b => { b with depth := b.depth - 1 }) (fun b => ⟨rfl, .inl rfl, fun h => by dsimp only; omega, rfl⟩)

theorem objectClose_ens {e : Env} {L h d : Nat} {P : List UInt8} {b : B} (hb : At e L h (d + 1) P b) :
    Ens e L h (P.length + (tabs e.format d).length + 3) (Done e L h d P (tabs e.format d ++ [0x7D])) (objectClose e b) := by
  have hd : b.depth = d + 1 := by obtain ⟨_, _, _, _, h4, _⟩ := hb; exact h4
  unfold objectClose
  refine (ensure_ens hb _).bind (N := P.length + (tabs e.format d).length + 3) ?_ (fun b1 hr => ?_)
  · rw [hd]; cases e.format <;> simp [tabs, when]; omega
  · have hd1 : b1.depth = d + 1 := by obtain ⟨_, _, _, _, h4, _⟩ := hr; exact h4
    have hw : ((if e.format then List.replicate (b1.depth - 1) 9 else []) ++ [0x7D, 0] : List UInt8) = (tabs e.format d ++ [0x7D]) ++ [0] := by
      rw [hd1]; cases e.format <;> simp [tabs, when]
    rw [hw]
    obtain ⟨rest, hp, hl, h3, h4, h5, h6⟩ := putAt_room hr (tabs e.format d ++ [0x7D] ++ [0])
      (by rw [hd]; cases e.format <;> simp [tabs, when])
    rw [hp]
    refine ⟨rest, ?_, ⟨Nat.le_of_eq h3.symm, by rw [List.length_append]; exact Nat.le_trans (Nat.le_of_eq h3) (Nat.le_add_right _ _)⟩, ?_, h5, ?_, ?_⟩
    · simp
    · show b1.depth - 1 = d; omega
    · intro hn; simpa using h6 hn
    · intro hna
      have h7 := h6 hna
      have h8 : (if e.format = true then b.depth + 1 else 2) = (tabs e.format d ++ [0x7D]).length + 1 := by
        rw [hd]; cases e.format <;> simp [tabs, when]
      rw [h8] at hl
      simp only [List.length_append, List.length_cons, List.length_nil] at *
      omega

/-- `update_offset` goes behind what was written. -/
theorem update_exact {e : Env} {L h d : Nat} {P T : List UInt8} {b : B} (hb : Done e L h d P T b) (hz : (0 : UInt8) ∉ T) :
    ∃ b' rest, updateOffset b = .yes b' ∧ b'.buf = some (P ++ T ++ 0 :: rest) ∧ b'.offset = (P ++ T).length ∧ b'.depth = d ∧ b'.held = h ∧
      (e.noalloc = true → (P ++ T ++ 0 :: rest).length = L) := by
  obtain ⟨rest, h1, h2, h4, h5, h6, h7⟩ := hb
  unfold updateOffset
  rw [h1]
  dsimp only
  obtain ⟨k, hk⟩ : ∃ k, b.offset = P.length + k := ⟨b.offset - P.length, by omega⟩
  have hkT : k ≤ T.length := by have := h2.2; rw [List.length_append] at this; omega
  have hd : (P ++ T ++ 0 :: rest).drop b.offset = T.drop k ++ 0 :: rest := by
    rw [hk, List.append_assoc, ← List.drop_drop, List.drop_left, List.drop_append_of_le_length hkT]
  rw [hd, if_pos (by simp)]
  have htw : ((T.drop k ++ 0 :: rest).takeWhile (· ≠ 0)) = T.drop k := by
    rw [List.takeWhile_append_of_pos]
    · simp
    · intro a ha
      rw [decide_eq_true_eq]
      rintro rfl
      exact hz (List.mem_of_mem_drop ha)
  rw [htw]
  refine ⟨_, rest, rfl, rfl, ?_, h4, h5, h6⟩
  simp only [List.length_drop, List.length_append]
  omega

theorem update_done {e : Env} {L h d : Nat} {P T : List UInt8} {b : B} (hb : Done e L h d P T b) (hz : (0 : UInt8) ∉ T) (N : Nat) :
    Ens e L h N (At e L h d (P ++ T)) (updateOffset b) := by
  obtain ⟨b', rest, h1, h2, h3, h4, h5, h6⟩ := update_exact hb hz
  rw [h1]
  exact ⟨0 :: rest, h2, .inl (by simp), h3, h4, h5, h6⟩

theorem spell_ok (c : UInt8) : c ≠ 0 → escByte c = spell c ∧ (spell c).length = 1 + extra c ∧ (0 : UInt8) ∉ spell c :=
  CJson.byte_all (p := fun c => c ≠ 0 → escByte c = spell c ∧ (spell c).length = 1 + extra c ∧ (0 : UInt8) ∉ spell c) (by decide +kernel) c

theorem putAt_putAt {b : B} {m : List UInt8} (hm : b.buf = some m) (k : Nat) (u v : List UInt8) (h : b.offset + k + (u ++ v).length ≤ m.length) (f : B → Res) :
    ((putAt b k u).bind fun b => (putAt b (k + u.length) v).bind f) = (putAt b k (u ++ v)).bind f := by
  rw [List.length_append] at h
  have h1 : putAt b k u = .yes { b with buf := some (m.take (b.offset + k) ++ u ++ m.drop (b.offset + k + u.length)) } := by
    unfold putAt; rw [hm]; dsimp only; rw [if_pos (by omega)]
  have h2 : putAt b k (u ++ v) = .yes { b with buf := some (m.take (b.offset + k) ++ (u ++ v) ++ m.drop (b.offset + k + (u ++ v).length)) } := by
    unfold putAt; rw [hm]; dsimp only; rw [if_pos (by rw [List.length_append]; omega)]
  rw [h1, h2]
  show (putAt _ _ _).bind f = f _
  unfold putAt
  dsimp only
  have hl : (m.take (b.offset + k) ++ u).length = b.offset + (k + u.length) := by
    rw [List.length_append, List.length_take]; omega
  have hp : b.offset + (k + u.length) + v.length ≤ (m.take (b.offset + k) ++ u ++ m.drop (b.offset + k + u.length)).length := by
    simp only [List.length_append, List.length_take, List.length_drop]; omega
  rw [if_pos hp]
  show f _ = f _
  congr 1
  simp only [B.mk.injEq, Option.some.injEq, and_true]
  rw [List.take_append_of_le_length (by omega), List.take_of_length_le (by omega), List.drop_append, List.drop_of_length_le (by omega), hl, List.nil_append,
    List.drop_drop, List.length_append]
  simp only [List.append_assoc]
  congr 4
  omega

theorem extra_zero {s : List UInt8} (hs : (0 : UInt8) ∉ s) (h : (s.map extra).sum = 0) : s.flatMap spell = s := by
  induction s with
  | nil => rfl
  | cons a s ih =>
    simp only [List.map_cons, List.sum_cons] at h
    have ha : a ≠ 0 := fun h => hs (by simp [h])
    have h1 : spell a = [a] := CJson.byte_all (p := fun c => extra c = 0 → spell c = [c]) (by decide +kernel) a (by omega)
    rw [List.flatMap_cons, h1, ih (fun h => hs (List.mem_cons_of_mem _ h)) (by omega)]
    rfl

theorem spell_len {s : List UInt8} (hs : (0 : UInt8) ∉ s) : (s.flatMap spell).length = s.length + (s.map extra).sum ∧ s.flatMap escByte = s.flatMap spell ∧
    (0 : UInt8) ∉ s.flatMap spell := by
  induction s with
  | nil => simp
  | cons a s ih =>
    obtain ⟨h1, h2, h3⟩ := spell_ok a (fun h => hs (by simp [h]))
    obtain ⟨i1, i2, i3⟩ := ih (fun h => hs (List.mem_cons_of_mem _ h))
    refine ⟨?_, ?_, ?_⟩
    · simp only [List.flatMap_cons, List.length_append, List.length_cons, List.map_cons, List.sum_cons]; omega
    · simp only [List.flatMap_cons, h1, i2]
    · rw [List.flatMap_cons]
      intro h
      rcases List.mem_append.mp h with h | h
      · exact h3 h
      · exact i3 h

theorem cut_nz (s : List UInt8) : (0 : UInt8) ∉ s.takeWhile (· ≠ 0) := by
  intro h
  have := List.all_takeWhile (p := fun x : UInt8 => decide (x ≠ 0)) (l := s)
  rw [List.all_eq_true] at this
  simpa using this 0 h

theorem quoted_nz (s : List UInt8) : (0 : UInt8) ∉ quoted s := by
  unfold quoted
  simp only [List.mem_append, List.mem_cons, not_or]
  exact ⟨⟨by decide, (spell_len (cut_nz s)).2.2⟩, by decide, by simp⟩

theorem printString_ens {e : Env} {L h d : Nat} {P : List UInt8} {b : B} (hb : At e L h d P b) (s : List UInt8) :
    Ens e L h (P.length + (quoted s).length + 2) (Done e L h d P (quoted s)) (printString e s b) := by
  obtain ⟨hl, hq, _⟩ := spell_len (cut_nz s)
  have hql : (quoted s).length = (s.takeWhile (· ≠ 0)).length + ((s.takeWhile (· ≠ 0)).map extra).sum + 2 := by
    unfold quoted
    simp only [List.length_append, List.length_cons, List.length_nil, hl]
  have hstep := finish_step (d' := d) hb _ (quoted s) rfl (fun b => b) (fun b => ⟨rfl, .inl rfl, fun h => h, rfl⟩)
  unfold printString
  dsimp only
  have hroom := ensure_ens hb ((quoted s).length + 1)
  rw [show (s.takeWhile (· ≠ 0)).length + ((s.takeWhile (· ≠ 0)).map extra).sum + 3 = (quoted s).length + 1 by omega]
  revert hstep hroom
  generalize ensure e b ((quoted s).length + 1) = r
  intro hstep hroom
  cases r with
  | fault => exact hstep
  | no b1 => exact hstep
  | yes b1 =>
    obtain ⟨rest, h1, h2, h3, _⟩ := hroom
    have hfit : b1.offset + 0 + (quoted s ++ [0]).length ≤ (P ++ rest).length := by
      simp only [List.length_append, List.length_cons, List.length_nil]; omega
    have hT : quoted s ++ [0] = [0x22] ++ ((s.takeWhile (· ≠ 0)).flatMap spell ++ [0x22, 0]) := by
      unfold quoted; simp
    have key : ∀ X : List UInt8, X = (s.takeWhile (· ≠ 0)).flatMap spell →
        ((putAt b1 0 [0x22]).bind fun b => (putAt b 1 X).bind fun b =>
          putAt b ((s.takeWhile (· ≠ 0)).length + ((s.takeWhile (· ≠ 0)).map extra).sum + 1) [0x22, 0]) = putAt b1 0 (quoted s ++ [0]) := by
      rintro X rfl
      have hx : (s.takeWhile (· ≠ 0)).length + ((s.takeWhile (· ≠ 0)).map extra).sum + 1 = 1 + ((s.takeWhile (· ≠ 0)).flatMap spell).length := by omega
      rw [hx]
      have e1 := putAt_putAt h1 0 [0x22] ((s.takeWhile (· ≠ 0)).flatMap spell)
        (by rw [hT] at hfit; simp only [List.length_append, List.length_cons, List.length_nil] at *; omega)
        (fun b => (putAt b (1 + ((s.takeWhile (· ≠ 0)).flatMap spell).length) [0x22, 0]))
      have e2 := putAt_putAt h1 0 ([0x22] ++ (s.takeWhile (· ≠ 0)).flatMap spell) [0x22, 0]
        (by rw [hT] at hfit; simp only [List.length_append, List.length_cons, List.length_nil] at *; omega) (fun b => .yes b)
      simp only [bind_yes] at e2
      rw [hT, ← List.append_assoc]
      simp only [List.length_append, List.length_cons, List.length_nil, Nat.zero_add] at e1 e2
      exact e1.trans e2
    have hgoal : Ens e L h (P.length + (quoted s).length + 2) (Done e L h d P (quoted s)) (putAt b1 0 (quoted s ++ [0])) := by
      have : (Res.bind (.yes b1) fun b => (putAt b 0 (quoted s ++ [0])).bind fun b => .yes b) = putAt b1 0 (quoted s ++ [0]) := by
        simp only [bind_yes]; rfl
      rw [this] at hstep
      exact hstep
    show Ens e L h _ _ (if _ then _ else _)
    split
    · rename_i hz
      rw [key _ (extra_zero (cut_nz s) hz).symm]
      exact hgoal
    · rw [key _ hq]
      exact hgoal

/-! ### Numbers -/

theorem near_close (t : Dbl) (q : Rat) : near t q = close t q := by
  cases t with
  | nan => rfl
  | inf b => rfl
  | fin t =>
    unfold near close
    rw [Bool.eq_iff_iff, decide_eq_true_eq, decide_eq_true_eq]
    generalize (t - q).abs = x
    generalize t.abs = a
    generalize q.abs = b
    split <;> grind

theorem dec_digits (n : Nat) : dec n = (Nat.toDigits 10 n).map (fun c => UInt8.ofNat c.toNat) := by
  fun_induction dec n with
  | case1 n h =>
    rw [Nat.toDigits_of_lt_base h]
    have : ∀ n, n < 10 → [UInt8.ofNat (48 + n)] = List.map (fun c => UInt8.ofNat c.toNat) [n.digitChar] := by decide
    exact this n h
  | case2 n h ih =>
    have := Nat.toDigits_append_toDigits (b := 10) (n := n / 10) (d := n % 10) (by decide) (by omega) (by omega)
    rw [show 10 * (n / 10) + n % 10 = n by omega] at this
    rw [← this, List.map_append, ih, Nat.toDigits_of_lt_base (n := n % 10) (by omega)]
    congr 1
    have : ∀ n, n < 10 → [UInt8.ofNat (48 + n)] = List.map (fun c => UInt8.ofNat c.toNat) [n.digitChar] := by decide
    exact this _ (by omega)

theorem dec_head (n : Nat) (hn : 0 < n) : (dec n).head? ≠ some 0x30 ∧ dec n ≠ [] := by
  fun_induction dec n with
  | case1 n h =>
    have : ∀ n, n < 10 → 0 < n → [UInt8.ofNat (0x30 + n)].head? ≠ some 0x30 ∧ [UInt8.ofNat (0x30 + n)] ≠ [] := by decide
    exact this n h hn
  | case2 n h ih =>
    obtain ⟨h1, h2⟩ := ih (by omega)
    refine ⟨?_, by simp⟩
    cases hd : dec (n / 10) with
    | nil => exact absurd hd h2
    | cons a t => rw [hd] at h1; exact h1

theorem decInt_decimal (n : Int) : decInt n = decimal n := by
  unfold decInt decimal
  rw [dec_digits]
  split <;> simp

theorem valueint_iff (q : Rat) : q = (valueint q : Rat) ↔ q.den = 1 ∧ -2147483648 ≤ q.num ∧ q.num ≤ 2147483647 := by
  constructor
  · intro h
    have hd : q.den = 1 := by rw [h]; exact Rat.den_intCast _
    have hn : q.num = valueint q := by conv => lhs; rw [h]
                                       exact Rat.num_intCast _
    refine ⟨hd, ?_⟩
    have hq : q = ((q.num : Int) : Rat) := by rw [hn]; exact h
    unfold valueint at hn
    split at hn
    · rw [hn]; decide
    · split at hn
      · rw [hn]; decide
      · rename_i h1 h2
        rw [hq] at h1 h2
        have h1' : ¬ ((2147483647 : Int) : Rat) ≤ (q.num : Rat) := h1
        have h2' : ¬ (q.num : Rat) ≤ ((-2147483648 : Int) : Rat) := h2
        rw [Rat.intCast_le_intCast] at h1' h2'
        omega
  · rintro ⟨hd, h1, h2⟩
    have hq : q = ((q.num : Int) : Rat) := by
      apply Rat.ext
      · exact (Rat.num_intCast _).symm
      · rw [Rat.den_intCast]; exact hd
    have : valueint q = q.num := by
      unfold valueint
      split
      · rename_i h3
        rw [hq] at h3
        have h3' : ((2147483647 : Int) : Rat) ≤ (q.num : Rat) := h3
        rw [Rat.intCast_le_intCast] at h3'
        omega
      · split
        · rename_i h3
          rw [hq] at h3
          have h3' : (q.num : Rat) ≤ ((-2147483648 : Int) : Rat) := h3
          rw [Rat.intCast_le_intCast] at h3'
          omega
        · rw [hd]; simp
    rw [this]; exact hq

theorem digit_code (c : Char) (h : c ∈ Nat.toDigits 10 n) : UInt8.ofNat c.toNat ∈ "0123456789".toUTF8.toList := by
  have hd := Nat.isDigit_of_mem_toDigits (by decide) (by decide) h
  have h1 : 48 ≤ c.toNat ∧ c.toNat ≤ 57 := by
    simp only [Char.isDigit, Bool.and_eq_true, decide_eq_true_eq] at hd
    exact ⟨hd.1, hd.2⟩
  have : ∀ k, k < 58 → 48 ≤ k → UInt8.ofNat k ∈ "0123456789".toUTF8.toList := by decide +kernel
  exact this _ (by omega) h1.1

theorem decimal_chars (n : Int) : ∀ c ∈ decimal n, c ∈ "0123456789-nul".toUTF8.toList := by
  intro c hc
  unfold decimal at hc
  rcases List.mem_append.mp hc with hc | hc
  · split at hc
    · rw [List.mem_singleton.mp hc]; decide +kernel
    · cases hc
  · obtain ⟨x, hx, rfl⟩ := List.mem_map.mp hc
    have := digit_code x hx
    exact CJson.byte_all (p := fun b => b ∈ "0123456789".toUTF8.toList → b ∈ "0123456789-nul".toUTF8.toList) (by decide +kernel) _ this

theorem decimal_nz (n : Int) : (0 : UInt8) ∉ decimal n := fun h => absurd (decimal_chars n 0 h) (by decide +kernel)

theorem decimal_len {n : Int} (h1 : -2147483648 ≤ n) (h2 : n ≤ 2147483647) : (decimal n).length ≤ 11 := by
  unfold decimal
  have : (Nat.toDigits 10 n.natAbs).length ≤ 10 := (Nat.length_toDigits_le_iff (by decide) (by decide)).mpr (by omega)
  rw [List.length_append, List.length_map]
  split <;> simp <;> omega

theorem map_id {l : List UInt8} {p : UInt8} (h : p ∉ l) : l.map (fun c => if c = p then 0x2E else c) = l := by
  induction l with
  | nil => rfl
  | cons a l ih =>
    rw [List.map_cons, ih (fun hm => h (List.mem_cons_of_mem _ hm)), if_neg]
    rintro rfl
    exact h (List.mem_cons_self ..)

theorem map_nz {l : List UInt8} {p : UInt8} (h : (0 : UInt8) ∉ l) : (0 : UInt8) ∉ l.map (fun c => if c = p then 0x2E else c) := by
  intro hm
  obtain ⟨x, hx, he⟩ := List.mem_map.mp hm
  split at he
  · exact absurd he (by decide)
  · exact h (he ▸ hx)

theorem numText_ok {l : Lib} (hl : Sane l) (d : Dbl) :
    (numText l d).map (fun c => if c = l.point then 0x2E else c) = number l d ∧ (numText l d).length ≤ 25 ∧ (0 : UInt8) ∉ number l d ∧ number l d ≠ [] := by
  have hnull : [0x6E, 0x75, 0x6C, 0x6C].map (fun c => if c = l.point then 0x2E else c) = [0x6E, 0x75, 0x6C, 0x6C] :=
    map_id (fun h => hl.1 (CJson.byte_all (p := fun b => b ∈ [0x6E, 0x75, 0x6C, 0x6C] → b ∈ "0123456789-nul".toUTF8.toList) (by decide +kernel) _ h))
  cases d with
  | nan => exact ⟨hnull, (by decide : 4 ≤ 25), (by decide : (0 : UInt8) ∉ [0x6E, 0x75, 0x6C, 0x6C]), fun h => by cases h⟩
  | inf s => exact ⟨hnull, (by decide : 4 ≤ 25), (by decide : (0 : UInt8) ∉ [0x6E, 0x75, 0x6C, 0x6C]), fun h => by cases h⟩
  | fin q =>
    unfold numText number
    dsimp only
    by_cases hv : q = (valueint q : Rat)
    · have hr := (valueint_iff q).mp hv
      have hn : valueint q = q.num := by
        have : q.num = valueint q := by conv => lhs; rw [hv]
                                        exact Rat.num_intCast _
        exact this.symm
      rw [if_pos hv, if_pos hr, decInt_decimal, hn]
      refine ⟨map_id (fun h => hl.1 (decimal_chars _ _ h)), ?_, decimal_nz _, fun h => absurd (congrArg List.length h) (by simp [decimal])⟩
      have := decimal_len hr.2.1 hr.2.2
      omega
    · rw [if_neg hv, if_neg (fun h => hv ((valueint_iff q).mpr h))]
      have hany : ((l.scan (l.g 15 q)).any fun t => close t q) = (match l.scan (l.g 15 q) with | some t => near t q | none => false) := by
        cases l.scan (l.g 15 q) with
        | none => rfl
        | some t => simp [near_close]
      rw [hany]
      have hg : ∀ c : Bool, (if c = true then l.g 15 q else l.g 17 q) ≠ [] ∧ (if c = true then l.g 15 q else l.g 17 q).length ≤ 25 ∧
          (0 : UInt8) ∉ (if c = true then l.g 15 q else l.g 17 q) := by
        intro c
        cases c
        · exact hl.2 17 q (.inr rfl)
        · exact hl.2 15 q (.inl rfl)
      obtain ⟨g1, g2, g3⟩ := hg (match l.scan (l.g 15 q) with | some t => near t q | none => false)
      exact ⟨rfl, g2, map_nz g3, fun h => g1 (List.map_eq_nil_iff.mp h)⟩

theorem printNumber_ens {e : Env} (he : Sane e.lib) {L h d : Nat} {P : List UInt8} {b : B} (hb : At e L h d P b) (v : Dbl) :
    Ens e L h (P.length + (number e.lib v).length + 2) (Done e L h d P (number e.lib v)) (printNumber e v b) := by
  obtain ⟨h1, h2, h3, _⟩ := numText_ok he v
  have hlen : (number e.lib v).length = (numText e.lib v).length := by rw [← h1, List.length_map]
  unfold printNumber
  dsimp only
  rw [if_neg (by omega), h1, ← hlen]
  exact finish_step (d' := d) hb _ (number e.lib v) rfl (fun b => { b with offset := b.offset + (number e.lib v).length })
    (fun b => ⟨rfl, .inr rfl, fun h => h, rfl⟩)

/-! ### Documents -/

mutual

theorem text_nz {l : Lib} (hl : Sane l) (fmt : Bool) : ∀ (j : J Dbl) (d : Nat), (0 : UInt8) ∉ text l fmt d j
  | .null, d => by rw [text]; decide
  | .bool false, d => by rw [text]; decide
  | .bool true, d => by rw [text]; decide
  | .num v, d => by rw [text]; exact (numText_ok hl v).2.2.1
  | .str s, d => by rw [text]; exact quoted_nz s
  | .arr xs, d => by
    have := elems_nz hl fmt xs (d + 1)
    rw [text]
    simp only [List.mem_append, List.mem_cons, not_or]
    exact ⟨⟨by decide, this⟩, by decide, by simp⟩
  | .obj xs, d => by
    have := members_nz hl fmt xs (d + 1)
    rw [text]
    cases fmt
    · simp [tabs, when, this]
    · simp [tabs, when, this]

theorem elems_nz {l : Lib} (hl : Sane l) (fmt : Bool) : ∀ (xs : List (J Dbl)) (d : Nat), (0 : UInt8) ∉ elems l fmt d xs
  | [], d => by rw [elems]; simp
  | x :: xs, d => by
    have h1 := text_nz hl fmt x d
    have h2 := elems_nz hl fmt xs d
    rw [elems]
    simp only [List.mem_append, not_or]
    refine ⟨⟨h1, ?_⟩, h2⟩
    split
    · simp
    · cases fmt <;> simp [when]

theorem members_nz {l : Lib} (hl : Sane l) (fmt : Bool) : ∀ (xs : List (List UInt8 × J Dbl)) (d : Nat), (0 : UInt8) ∉ members l fmt d xs
  | [], d => by rw [members]; simp
  | (k, x) :: xs, d => by
    have h1 := text_nz hl fmt x d
    have h2 := members_nz hl fmt xs d
    have h3 := quoted_nz k
    rw [members]
    cases fmt
    · simp only [List.mem_append, List.mem_cons, not_or, tabs, when]
      refine ⟨⟨⟨⟨⟨⟨by simp, h3⟩, by decide, by simp⟩, h1⟩, ?_⟩, by simp⟩, h2⟩
      split <;> simp
    · simp only [List.mem_append, List.mem_cons, not_or, tabs, when]
      refine ⟨⟨⟨⟨⟨⟨by simp, h3⟩, by decide, by simp⟩, h1⟩, ?_⟩, by simp⟩, h2⟩
      split <;> simp

end

theorem text_pos {l : Lib} (hl : Sane l) {fmt : Bool} (j : J Dbl) (d : Nat) : 1 ≤ (text l fmt d j).length := by
  cases j with
  | null => rw [text]; decide
  | bool b => cases b <;> rw [text] <;> decide
  | num v => rw [text]; exact List.length_pos_iff.mpr (numText_ok hl v).2.2.2
  | str s => rw [text]; simp [quoted]
  | arr xs => rw [text]; simp
  | obj xs => rw [text]; simp

/-- Two parts written one after the other are one. -/
theorem Done.join {e : Env} {L h d : Nat} {P T1 T2 : List UInt8} {b : B} (hb : Done e L h d (P ++ T1) T2 b) : Done e L h d P (T1 ++ T2) b := by
  obtain ⟨rest, g1, g2, g3, g4, g5, g6⟩ := hb
  refine ⟨rest, by rw [g1]; simp, ⟨?_, ?_⟩, g3, g4, by simpa using g5, by simpa using g6⟩
  · have := g2.1; rw [List.length_append] at this; omega
  · have := g2.2; simpa using this

mutual

theorem printValue_ens {e : Env} (he : Sane e.lib) {L h : Nat} : ∀ (j : J Dbl) (d : Nat) (P : List UInt8) (b : B), At e L h d P b →
    Ens e L h (P.length + (text e.lib e.format d j).length + 2) (Done e L h d P (text e.lib e.format d j)) (printValue e j b)
  | .null, d, P, b, hb => by rw [text, printValue]; exact printWord_ens hb _
  | .bool false, d, P, b, hb => by rw [text, printValue]; exact printWord_ens hb _
  | .bool true, d, P, b, hb => by rw [text, printValue]; exact printWord_ens hb _
  | .num v, d, P, b, hb => by rw [text, printValue]; exact printNumber_ens he hb v
  | .str s, d, P, b, hb => by rw [text, printValue]; exact printString_ens hb s
  | .arr xs, d, P, b, hb => by
    rw [text, printValue]
    have hlen : (0x5B :: elems e.lib e.format (d + 1) xs ++ [0x5D] : List UInt8).length = (elems e.lib e.format (d + 1) xs).length + 2 := by simp
    rw [hlen]
    refine (arrayOpen_ens hb).bind (by omega) (fun b1 h1 => ?_)
    refine (printElems_ens he xs (d + 1) _ b1 h1).bind (by simp; omega) (fun b2 h2 => ?_)
    refine (arrayClose_ens h2).mono (by simp; omega) (fun b3 h3 => ?_)
    rw [List.append_assoc] at h3
    exact Done.join h3
  | .obj xs, d, P, b, hb => by
    rw [text, printValue]
    have hlen : (0x7B :: when e.format [10] ++ members e.lib e.format (d + 1) xs ++ tabs e.format d ++ [0x7D] : List UInt8).length =
        (when e.format [10]).length + (members e.lib e.format (d + 1) xs).length + (tabs e.format d).length + 2 := by simp; omega
    rw [hlen]
    refine (objectOpen_ens hb).bind (by omega) (fun b1 h1 => ?_)
    refine (printMembers_ens he xs (d + 1) _ b1 h1).bind (by simp; omega) (fun b2 h2 => ?_)
    refine (objectClose_ens h2).mono (by simp; omega) (fun b3 h3 => ?_)
    rw [List.append_assoc] at h3
    have := Done.join h3
    simpa using this

theorem printElems_ens {e : Env} (he : Sane e.lib) {L h : Nat} : ∀ (xs : List (J Dbl)) (d : Nat) (P : List UInt8) (b : B), At e L h d P b →
    Ens e L h (P.length + (elems e.lib e.format d xs).length + 2) (At e L h d (P ++ elems e.lib e.format d xs)) (printElems e xs b)
  | [], d, P, b, hb => by
    rw [elems, printElems]
    show At e L h d _ b
    simpa using hb
  | x :: xs, d, P, b, hb => by
    rw [elems, printElems]
    refine (printValue_ens he x d P b hb).bind (by simp only [List.length_append]; omega) (fun b1 h1 => ?_)
    refine (update_done h1 (text_nz he _ x d) 0).bind (by omega) (fun b2 h2 => ?_)
    cases xs with
    | nil =>
      rw [elems]
      show Ens e L h _ _ (printElems e [] b2)
      rw [printElems]
      show At e L h d _ b2
      simpa using h2
    | cons y ys =>
      rw [if_neg (by simp), if_neg (by simp)]
      refine (arraySep_ens h2).bind ?_ (fun b3 h3 => ?_)
      · simp only [List.length_append, List.length_cons]
        have : 1 ≤ (elems e.lib e.format d (y :: ys)).length := by
          rw [elems]
          have : 1 ≤ (text e.lib e.format d y).length := text_pos he y d
          simp only [List.length_append]; omega
        omega
      · refine (printElems_ens he (y :: ys) d _ b3 h3).mono (by simp; omega) (fun b4 h4 => ?_)
        simpa using h4

theorem printMembers_ens {e : Env} (he : Sane e.lib) {L h : Nat} : ∀ (xs : List (List UInt8 × J Dbl)) (d : Nat) (P : List UInt8) (b : B), At e L h d P b →
    Ens e L h (P.length + (members e.lib e.format d xs).length + 2) (At e L h d (P ++ members e.lib e.format d xs)) (printMembers e xs b)
  | [], d, P, b, hb => by
    rw [members, printMembers]
    show At e L h d _ b
    simpa using hb
  | (k, x) :: xs, d, P, b, hb => by
    rw [members, printMembers]
    have hw : (if xs.isEmpty then [] else [0x2C] : List UInt8) = when (!xs.isEmpty) [0x2C] := by cases xs.isEmpty <;> rfl
    rw [hw]
    have hlen : (tabs e.format d ++ quoted k ++ 0x3A :: when e.format [9] ++ text e.lib e.format d x ++ when (!xs.isEmpty) [0x2C] ++ when e.format [10] ++
        members e.lib e.format d xs).length = (tabs e.format d).length + (quoted k).length + 1 + (when e.format [9]).length + (text e.lib e.format d x).length +
          (when (!xs.isEmpty) [0x2C]).length + (when e.format [10]).length + (members e.lib e.format d xs).length := by
      simp only [List.length_append, List.length_cons]; omega
    rw [hlen]
    refine (indent_ens hb).bind (by omega) (fun b1 h1 => ?_)
    refine (printString_ens h1 k).bind (by simp; omega) (fun b2 h2 => ?_)
    refine (update_done h2 (quoted_nz k) 0).bind (by omega) (fun b3 h3 => ?_)
    refine (colon_ens h3).bind (by simp; omega) (fun b4 h4 => ?_)
    refine (printValue_ens he x d _ b4 h4).bind (by simp; omega) (fun b5 h5 => ?_)
    refine (update_done h5 (text_nz he _ x d) 0).bind (by omega) (fun b6 h6 => ?_)
    refine (memberEnd_ens (!xs.isEmpty) h6).bind (by simp; omega) (fun b7 h7 => ?_)
    refine (printMembers_ens he xs d _ b7 h7).mono (by simp; omega) (fun b8 h8 => ?_)
    simpa using h8

end

end Verif.CJsonPrint
