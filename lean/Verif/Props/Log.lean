import Verif.Model.Log
/-
Properties C44 (log lines stay inside their buffer), C60 (log lines name their level) and C68 (level and destination).
-/
namespace Verif.Log

theorem printInto_length {buf : List UInt8} {pos : Nat} {text out : List UInt8} (hb : buf.length = size)
    (h : printInto buf pos text = some out) : out.length = size := by
  unfold printInto at h
  split at h
  · rename_i hp
    split at h
    · simp only [Option.some.injEq] at h; rw [← h]; exact hb
    · rename_i hs
      simp only [Option.some.injEq] at h
      rw [← h]
      simp only [List.length_append, List.length_take, List.length_drop, List.length_singleton, hb]
      omega
  · simp at h

/-- C44 (partial): a line of at most 510 bytes (prefix and text together) is written out completely and exactly. -/
theorem c44_exact_partial (pre text : List UInt8) (h : pre.length + text.length ≤ 510) : line pre text = .line (pre ++ text) := by
  have h512 : size = 512 := rfl
  have e1 : ∃ b1, printInto (List.replicate size 0) 0 pre = some b1 ∧ b1.length = size ∧ b1.take pre.length = pre := by
    unfold printInto
    rw [if_pos (by omega), if_neg (by omega)]
    refine ⟨_, rfl, ?_, ?_⟩
    · simp only [List.length_append, List.length_take, List.length_drop, List.length_singleton, List.length_replicate]; omega
    · rw [List.take_of_length_le (l := pre) (by omega)]
      simp [-List.reduceReplicate]
  obtain ⟨b1, e1, l1, t1⟩ := e1
  have e2 : ∃ b2, printInto b1 pre.length text = some b2 ∧ b2.take (pre.length + text.length) = pre ++ text := by
    unfold printInto
    rw [if_pos (by omega), if_neg (by omega)]
    refine ⟨_, rfl, ?_⟩
    rw [List.take_of_length_le (l := text) (by omega), t1, List.append_assoc, ← List.append_assoc, ← List.append_assoc]
    rw [List.append_assoc, List.take_append_of_le_length (by simp), List.take_of_length_le (by simp)]
  obtain ⟨b2, e2, t2⟩ := e2
  unfold line
  simp only [e1, e2]
  rw [if_pos (by omega), t2]

/-- Case for `c44_exact_partial`. -/
example : line [0x5b, 0x65, 0x5d] [0x68, 0x69, 10] = .line [0x5b, 0x65, 0x5d, 0x68, 0x69, 10] := c44_exact_partial _ _ (by decide)

/-- C44: exactly when formatting stays inside the buffer. -/
theorem c44_inside_iff (pre text : List UInt8) : (∃ l, line pre text = .line l) ↔ pre.length ≤ 511 ∧ pre.length + text.length ≤ 512 := by
  have h512 : size = 512 := rfl
  obtain ⟨b1, e1⟩ : ∃ b1, printInto (List.replicate size 0) 0 pre = some b1 := by
    unfold printInto; rw [if_pos (by omega), if_neg (by omega)]; exact ⟨_, rfl⟩
  unfold line
  simp only [e1]
  by_cases hp : pre.length < size
  · obtain ⟨b2, e2⟩ : ∃ b2, printInto b1 pre.length text = some b2 := by
      unfold printInto; rw [if_pos hp]; split <;> exact ⟨_, rfl⟩
    simp only [e2]
    split
    · rename_i h; exact ⟨fun _ => ⟨by omega, by omega⟩, fun _ => ⟨_, rfl⟩⟩
    · rename_i h; exact ⟨fun ⟨_, e⟩ => by simp at e, fun e => by omega⟩
  · have e2 : printInto b1 pre.length text = none := by unfold printInto; rw [if_neg hp]
    simp only [e2]
    exact ⟨fun ⟨_, e⟩ => by simp at e, fun e => by omega⟩

/-- Case: 60 bytes of prefix leave room for 452 bytes, not for 453. -/
example : (∃ l, line (List.replicate 60 0x70) (List.replicate 452 0x74) = .line l) ∧
    ¬∃ l, line (List.replicate 60 0x70) (List.replicate 453 0x74) = .line l := by
  rw [c44_inside_iff, c44_inside_iff]
  simp only [List.length_replicate]
  omega

/-- C44 is false of the code: for every prefix that fits and every text with which the line exceeds 512 bytes, memory behind the buffer is written to
the log, as many bytes as the line is too long. -/
theorem c44_long_line_counterexample (pre text : List UInt8) (hp : pre.length ≤ 511) (h : pre.length + text.length > 512) :
    line pre text = .overRead (pre.length + text.length - 512) := by
  have h512 : size = 512 := rfl
  obtain ⟨b1, e1⟩ : ∃ b1, printInto (List.replicate size 0) 0 pre = some b1 := by
    unfold printInto; rw [if_pos (by omega), if_neg (by omega)]; exact ⟨_, rfl⟩
  obtain ⟨b2, e2⟩ : ∃ b2, printInto b1 pre.length text = some b2 := by
    unfold printInto; rw [if_pos (by omega)]; split <;> exact ⟨_, rfl⟩
  unfold line
  simp only [e1, e2]
  rw [if_neg (by omega), h512]

/-- Case for `c44_long_line_counterexample`. -/
example : line (List.replicate 60 0x70) (List.replicate 600 0x74) = .overRead 148 := by
  rw [c44_long_line_counterexample] <;> simp [-List.reduceReplicate]

/-- C44: a prefix that exceeds the buffer makes the text formatter write behind it, whatever the text. -/
theorem c44_long_prefix_counterexample (pre text : List UInt8) (hp : 512 ≤ pre.length) : line pre text = .overWrite := by
  have h512 : size = 512 := rfl
  obtain ⟨b1, e1⟩ : ∃ b1, printInto (List.replicate size 0) 0 pre = some b1 := by
    unfold printInto; rw [if_pos (by omega), if_neg (by omega)]; exact ⟨_, rfl⟩
  have e2 : printInto b1 pre.length text = none := by unfold printInto; rw [if_neg (by omega)]
  unfold line
  simp only [e1, e2]

/-- Case: a prefix of 600 bytes, a short text. -/
example : line (List.replicate 600 0x70) [10] = .overWrite := c44_long_prefix_counterexample _ _ (by rw [List.length_replicate]; decide)

/-- C44: lines of 511 and 512 bytes stay inside the buffer but are not written as they are: whatever follows the first 510 bytes is replaced by NUL
bytes, the line end included. -/
theorem c44_nul_counterexample (pre text : List UInt8) (hp : pre.length ≤ 511) (h1 : 511 ≤ pre.length + text.length)
    (h2 : pre.length + text.length ≤ 512) :
    line pre text = .line ((pre ++ text).take 510 ++ List.replicate (pre.length + text.length - 510) 0) := by
  have h512 : size = 512 := rfl
  have e1 : printInto (List.replicate size 0) 0 pre = some (pre.take 510 ++ List.replicate (512 - min 510 pre.length) 0) := by
    unfold printInto
    rw [if_pos (by omega), if_neg (by omega)]
    simp only [h512, List.take_zero, List.nil_append, List.length_append, List.length_take, List.length_singleton,
      Nat.zero_add, List.drop_replicate, Nat.sub_zero, show 512 - 2 = 510 from rfl]
    congr 1
    rw [List.append_assoc]
    congr 1
    rw [show [(0 : UInt8)] = List.replicate 1 0 from rfl, List.replicate_append_replicate]
    congr 1
    omega
  unfold line
  simp only [e1]
  by_cases hs : size - pre.length - 1 = 0
  · have hpl : pre.length = 511 := by omega
    unfold printInto
    rw [if_pos (by omega), if_pos hs]
    simp only
    rw [if_pos (by omega)]
    refine congrArg Out.line ?_
    rw [List.take_append, List.take_of_length_le (l := pre.take 510) (by simp; omega), List.take_append_of_le_length (by omega)]
    refine congrArg _ ?_
    rw [List.take_replicate]
    refine congrArg (fun n => List.replicate n _) ?_
    simp only [List.length_take]; omega
  · have e2 : printInto (pre.take 510 ++ List.replicate (512 - min 510 pre.length) 0) pre.length text =
        some ((pre ++ text).take 510 ++ [0, 0]) := by
      unfold printInto
      rw [if_pos (by omega), if_neg hs]
      dsimp only
      refine congrArg some ?_
      have hp' : pre.length ≤ 510 := by omega
      rw [List.take_of_length_le (l := pre) (by omega), List.take_append_of_le_length (by omega), List.take_length, List.append_assoc,
        List.append_assoc, List.take_append, List.take_of_length_le (l := pre) (by omega), List.append_assoc]
      rw [h512, show 512 - pre.length - 2 = 510 - pre.length by omega]
      refine congrArg _ (congrArg _ ?_)
      simp only [List.length_append, List.length_take, List.length_singleton]
      rw [show min (510 - pre.length) text.length = 510 - pre.length by omega, List.drop_append,
        List.drop_eq_nil_of_le (by omega), List.nil_append, List.drop_replicate,
        show 512 - min 510 pre.length - (pre.length + (510 - pre.length + 1) - pre.length) = 1 by omega]
      rfl
    simp only [e2]
    rw [if_pos (by omega)]
    refine congrArg Out.line ?_
    rw [List.take_append, List.take_of_length_le (l := (pre ++ text).take 510) (by simp; omega)]
    refine congrArg _ ?_
    rw [show [(0 : UInt8), 0] = List.replicate 2 0 from rfl, List.take_replicate]
    refine congrArg (fun n => List.replicate n _) ?_
    simp only [List.length_take, List.length_append]; omega

/-- Case for `c44_nul_counterexample`: a line of exactly 512 bytes loses its line end. -/
example (a : List UInt8) (ha : a.length = 511) :
    line [] (a ++ [10]) = .line (a.take 510 ++ [0, 0]) := by
  rw [c44_nul_counterexample _ _ (by simp) (by simp; omega) (by simp; omega)]
  simp only [List.nil_append, List.length_nil, List.length_append, List.length_singleton, ha]
  rw [List.take_append_of_le_length (by omega)]
  rfl

/-! ### C68 -/

/-- C68. With the level set to errors only, only error messages are written; with info, error and info messages; with debug, all. A message that is
written goes exactly once to standard output and, if its file is open, exactly once to that file and to no other; a message that is not written
goes nowhere. -/
theorem c68_routed (ctx : Ctx) (id : Id) (l : Level) (configured : Level) (pre text : List UInt8) :
    let wanted := match configured with
      | .error => l = .error
      | .info => l = .error ∨ l = .info
      | .debug => True
    let file := match id with
      | .main => ∃ m a, ctx = some (m, a) ∧ 0 < m
      | .access => ∃ m a, ctx = some (m, a) ∧ 0 < a
    let own := match id with
      | .main => Sink.main
      | .access => Sink.access
    (¬ wanted → print configured.num ctx id l pre text = []) ∧
    (wanted → file → print configured.num ctx id l pre text = [(.stdout, line pre text), (own, line pre text)]) ∧
    (wanted → ¬ file → print configured.num ctx id l pre text = [(.stdout, line pre text)]) := by
  dsimp only
  unfold print enabled toFile
  refine ⟨?_, ?_, ?_⟩
  · intro h
    cases configured <;> cases l <;> simp_all [Level.num]
  · intro h hf
    have he : (decide (l.num ≤ configured.num)) = true := by cases configured <;> cases l <;> simp_all [Level.num]
    rw [if_pos he]
    cases id <;> (obtain ⟨m, a, rfl, hm⟩ := hf; simp [hm])
  · intro h hf
    have he : (decide (l.num ≤ configured.num)) = true := by cases configured <;> cases l <;> simp_all [Level.num]
    rw [if_pos he]
    cases id <;> (rcases ctx with _ | ⟨m, a⟩ <;> simp_all)

/-- Case for C68: an error message for the main file, which is open. -/
example : print 0 (some (3, 4)) .main .error [0x5b] [10] = [(.stdout, .line [0x5b, 10]), (.main, .line [0x5b, 10])] := by
  decide +kernel

/-- The name a line of each level should carry. -/
def name : Level → String
  | .error => "[error]"
  | .info => "[info]"
  | .debug => "[debug]"

/-- C60 (partial): error messages are labelled as such. -/
theorem c60_error_partial (time func : String) (n : Nat) :
    prefixOf .error time func n = name .error ++ " " ++ time ++ " <" ++ func ++ ":" ++ toString n ++ "> " := rfl

/-- Case for `c60_error_partial`. -/
example : prefixOf .error "2026/01/02 03:04:05.006" "net_accept" 147 = "[error] 2026/01/02 03:04:05.006 <net_accept:147> " := by decide

/-- C60 is false of the code: access messages are labelled as debugging messages and debugging messages as information, at every
place and time. -/
theorem c60_swapped_counterexample (time func : String) (n : Nat) :
    prefixOf .info time func n = name .debug ++ " " ++ time ++ " <" ++ func ++ ":" ++ toString n ++ "> " ∧
    prefixOf .debug time func n = name .info ++ " " ++ time ++ " <" ++ func ++ ":" ++ toString n ++ "> " := ⟨rfl, rfl⟩

/-- Case: an access message. -/
example : prefixOf .info "2026/01/02 03:04:05.006" "webser_access_log" 23 = "[debug] 2026/01/02 03:04:05.006 <webser_access_log:23> " := by decide

end Verif.Log
