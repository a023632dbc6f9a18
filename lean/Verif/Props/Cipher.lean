import Verif.Model.Cipher
import Verif.Spec.Cipher
/-
Property C113: what the encryption helpers keep and what they do not.
-/
namespace Verif.Cipher
open Verif.Spec.Cipher

theorem xor_cancel (a b : UInt8) : a ^^^ b ^^^ b = a := by rw [UInt8.xor_assoc, UInt8.xor_self, UInt8.xor_zero]

theorem cfbEnc_length (L : Lib) (k r p : List UInt8) : (cfbEnc L k r p).length = p.length := by
  induction p generalizing r with
  | nil => rfl
  | cons x xs ih => simp [cfbEnc, ih]

theorem cfbDec_length (L : Lib) (k r p : List UInt8) : (cfbDec L k r p).length = p.length := by
  induction p generalizing r with
  | nil => rfl
  | cons x xs ih => simp [cfbDec, ih]

theorem cfb_round (L : Lib) (k r p : List UInt8) : cfbDec L k r (cfbEnc L k r p) = p := by
  induction p generalizing r with
  | nil => rfl
  | cons x xs ih => simp only [cfbEnc, cfbDec, xor_cancel, ih]

/-- A small library for the cases. -/
def exLib : Lib := ⟨fun k r => [k.headD 0 + r.foldl (· + ·) 1], fun k v i => k.headD 0 + v.headD 0 * 3 + i.toUInt8, fun k v c => List.replicate 16 (k.headD 0 + v.headD 0 + c.foldl (fun a b => a * 3 + b) 7)⟩

/-- All calls succeed. -/
def allOk : CfbOk := ⟨true, true, true, true⟩

/-- C113, CFB. What `aes_cfb_encrypt` writes is as long as the message, and `aes_cfb_decrypt` gives the message back, for every block cipher; as long as the library's calls succeed
(whether the last call, which has nothing to do, succeeds does not matter). -/
theorem c113_cfb_round (L : Lib) (ok ok' : CfbOk) (p more : List UInt8) (h : ok.new = true ∧ ok.init = true ∧ ok.update = true) (h' : ok'.new = true ∧ ok'.init = true ∧ ok'.update = true) :
    ∃ c, cfbEncrypt L ok (p ++ more) p.length = some (c, (p.length : Int)) ∧ c.length = p.length ∧ ∀ rest, cfbDecrypt L ok' (c ++ rest) p.length = some (p, (p.length : Int)) := by
  by_cases hp : p = []
  · subst hp; exact ⟨[], by simp [cfbEncrypt], rfl, fun rest => by simp [cfbDecrypt]⟩
  · have hl : 1 ≤ p.length := by cases p; exact absurd rfl hp; simp
    refine ⟨cfbEnc L key iv p, ?_, cfbEnc_length .., fun rest => ?_⟩
    · rw [cfbEncrypt, if_neg (by omega), if_neg (by simp; omega)]
      simp [h]
    · rw [cfbDecrypt, if_neg (by omega), if_neg (by simp [cfbEnc_length]; omega)]
      simp [h', cfb_round, ← cfbEnc_length L key iv p]

example : cfbEncrypt exLib allOk [1, 2, 3, 9] 3 = some ([219, 67, 32], 3) ∧ cfbDecrypt exLib allOk [219, 67, 32] 3 = some ([1, 2, 3], 3) := by decide +kernel

/-- C113, failures of CFB. Whatever fails, the value returned is that of an empty message: nothing tells a caller that nothing was encrypted. -/
theorem c113_cfb_failed (L : Lib) (ok : CfbOk) (p : List UInt8) (n : Int) (hn : n ≤ p.length) (h : ¬ (ok.new = true ∧ ok.init = true ∧ ok.update = true)) :
    cfbEncrypt L ok p n = some ([], 0) ∧ cfbDecrypt L ok p n = some ([], 0) := by
  have hb : (ok.new && ok.init && ok.update) = false := by
    rw [Bool.eq_false_iff]; intro hb; simp only [Bool.and_eq_true] at hb; exact h ⟨hb.1.1, hb.1.2, hb.2⟩
  unfold cfbEncrypt cfbDecrypt
  rw [hb]
  constructor <;> split <;> try rfl
  · rw [if_neg (by omega)]; rfl
  · rw [if_neg (by omega)]; rfl

example : (cfbEncrypt exLib ⟨true, true, false, true⟩ [1, 2, 3] 3, cfbEncrypt exLib allOk [] 0) = (some ([], 0), some ([], 0)) := by decide +kernel

theorem cfbEnc_append (L : Lib) (k : List UInt8) (a b : List UInt8) : ∀ r, ∃ r', cfbEnc L k r (a ++ b) = cfbEnc L k r a ++ cfbEnc L k r' b ∧
    ∀ b', cfbEnc L k r (a ++ b') = cfbEnc L k r a ++ cfbEnc L k r' b' := by
  induction a with
  | nil => intro r; exact ⟨r, rfl, fun _ => rfl⟩
  | cons x xs ih =>
    intro r
    obtain ⟨r', h1, h2⟩ := ih (r.drop 1 ++ [x ^^^ pad L k r])
    exact ⟨r', by simp only [List.cons_append, cfbEnc, h1], fun b' => by simp only [List.cons_append, cfbEnc, h2]⟩

/-- C113, secrecy of CFB is not there: key and IV are constants, so equal beginnings of two messages show as equal beginnings of what is sent, and at the first difference the two
bytes sent differ by exactly what the messages differ by. -/
theorem c113_cfb_reveals_counterexample (L : Lib) (a s t : List UInt8) (x y : UInt8) :
    ∃ c x' y' s' t', cfbEncrypt L allOk (a ++ x :: s) (a.length + 1 + s.length) = some (c ++ x' :: s', (a.length + 1 + s.length : Int)) ∧
      cfbEncrypt L allOk (a ++ y :: t) (a.length + 1 + t.length) = some (c ++ y' :: t', (a.length + 1 + t.length : Int)) ∧ c.length = a.length ∧ x' ^^^ y' = x ^^^ y := by
  obtain ⟨r, h1, h2⟩ := cfbEnc_append L key a (x :: s) iv
  have hx : ∀ (z : UInt8) (u : List UInt8), cfbEncrypt L allOk (a ++ z :: u) (a.length + 1 + u.length) = some (cfbEnc L key iv (a ++ z :: u), (a.length + 1 + u.length : Int)) := by
    intro z u
    rw [cfbEncrypt, if_neg (by omega), if_neg (by simp; omega)]
    simp only [allOk, Bool.and_self, if_true, Option.some.injEq, Prod.mk.injEq, and_true]
    rw [List.take_of_length_le (by simp; omega)]
  refine ⟨cfbEnc L key iv a, x ^^^ pad L key r, y ^^^ pad L key r, _, _, by rw [hx, h1, cfbEnc], by rw [hx, h2, cfbEnc], cfbEnc_length .., ?_⟩
  rw [UInt8.xor_assoc, UInt8.xor_comm y, ← UInt8.xor_assoc (pad L key r), UInt8.xor_self, UInt8.zero_xor]

/-- C113, integrity of CFB is not there: who changes the last byte sent changes the last byte received by the same amount, and nothing else, without knowing the key. -/
theorem c113_cfb_malleable_counterexample (L : Lib) (p : List UInt8) (x δ : UInt8) :
    ∃ c y, cfbEncrypt L allOk (p ++ [x]) (p.length + 1) = some (c ++ [y], (p.length + 1 : Int)) ∧ cfbDecrypt L allOk (c ++ [y ^^^ δ]) (p.length + 1) = some (p ++ [x ^^^ δ], (p.length + 1 : Int)) := by
  obtain ⟨r, h1, -⟩ := cfbEnc_append L key p [x] iv
  refine ⟨cfbEnc L key iv p, x ^^^ pad L key r, ?_, ?_⟩
  · rw [cfbEncrypt, if_neg (by omega), if_neg (by simp)]
    simp only [allOk, Bool.and_self, if_true, Option.some.injEq, Prod.mk.injEq, and_true]
    rw [List.take_of_length_le (by simp), h1]
    rfl
  · rw [cfbDecrypt, if_neg (by omega), if_neg (by simp [cfbEnc_length])]
    simp only [allOk, Bool.and_self, if_true, Option.some.injEq, Prod.mk.injEq, and_true]
    rw [List.take_of_length_le (by simp [cfbEnc_length])]
    have key' : ∀ (p r0 r1 : List UInt8), (cfbEnc L key r0 (p ++ [x]) = cfbEnc L key r0 p ++ [x ^^^ pad L key r1]) →
        cfbDec L key r0 (cfbEnc L key r0 p ++ [x ^^^ pad L key r1 ^^^ δ]) = p ++ [x ^^^ δ] := by
      intro p
      induction p with
      | nil =>
        intro r0 r1 h
        simp only [List.nil_append, cfbEnc, List.cons.injEq, and_true] at h
        simp only [cfbEnc, List.nil_append, cfbDec, ← h, List.cons.injEq, and_true]
        rw [UInt8.xor_assoc, UInt8.xor_comm δ, ← UInt8.xor_assoc, xor_cancel]
      | cons z zs ih =>
        intro r0 r1 h
        simp only [List.cons_append, cfbEnc, List.cons.injEq, true_and] at h
        simp only [List.cons_append, cfbEnc, cfbDec, xor_cancel, ih _ _ h]
    exact key' p iv r h1

example : cfbDecrypt exLib allOk [219, 67, 32 ^^^ 128] 3 = some ([1, 2, 3 ^^^ 128], 3) := by decide +kernel

/-! ### GCM -/

/-- A new context. -/
def fresh (typ : Int) (c : Ctx) : Prop := (ctxInit ⟨true, true, true, true, true⟩ typ).1 = some c

theorem stream_length (L : Lib) (c : Ctx) (s : List UInt8) : (stream L c s).length = s.length := by simp [stream]

theorem stream_get (L : Lib) (c : Ctx) (s : List UInt8) (i : Nat) (h : i < s.length) : (stream L c s)[i]'(by rw [stream_length]; exact h) = s[i] ^^^ L.ks c.key c.iv i := by
  simp [stream]

theorem stream_twice (L : Lib) (c d : Ctx) (hk : d.key = c.key) (hv : d.iv = c.iv) (s : List UInt8) : stream L d (stream L c s) = s := by
  apply List.ext_getElem (by simp [stream_length])
  intro i h1 h2
  rw [stream_get _ _ _ _ (by rw [stream_length]; exact h2), stream_get _ _ _ _ h2, hk, hv, xor_cancel]

/-- C113, contexts. Whatever fails, the two blocks of a context are there and it is ready, or both are given back and there is none; giving a context back gives back both. A context is of
the kind asked for. -/
theorem c113_context (ok : InitOk) (typ : Int) :
    ((ctxInit ok typ).1 = none ∧ (ctxInit ok typ).2 = 0 ∨ ∃ c, (ctxInit ok typ).1 = some c ∧ (ctxInit ok typ).2 = 2 ∧ c.fresh = true ∧ (c.enc = true ↔ typ = 0)) ∧
    ctxExit (ctxInit ok typ).1 (ctxInit ok typ).2 = 0 := by
  obtain ⟨a, b, c, d, e⟩ := ok
  cases a <;> cases b <;> cases c <;> cases d <;> cases e <;> simp [ctxInit, ctxExit]

example : ctxInit ⟨true, true, true, false, true⟩ 0 = (none, 0) ∧ (ctxInit ⟨true, true, true, true, true⟩ 0).2 = 2 := by decide +kernel

/-- C113, GCM. A message that was encrypted with a new context is given back by a new context for decryption that gets the tag (tags have 16 bytes). -/
theorem c113_gcm_round (L : Lib) (hm : ∀ k v c, (L.mac k v c).length = 16) (e d : Ctx) (he : fresh 0 e) (hd : fresh 1 d) (p : List UInt8) :
    ∃ tag, (gcmEnc L true true true e p).tag = some tag ∧ (gcmEnc L true true true e p).ret = p.length ∧
      (gcmDec L true true d (gcmEnc L true true true e p).out tag).ret = p.length ∧ (gcmDec L true true d (gcmEnc L true true true e p).out tag).out = p := by
  simp only [fresh, ctxInit, if_true, Bool.and_self, Option.some.injEq] at he hd
  subst he; subst hd
  refine ⟨_, rfl, rfl, ?_, ?_⟩
  · simp [gcmEnc, gcmDec, stream_length, List.take_of_length_le, hm]
  · simp only [gcmEnc, gcmDec, Bool.and_self, decide_true, if_true]
    rw [if_pos (by simp), if_pos (by rw [List.take_of_length_le (by rw [hm]; exact Nat.le_refl 16)])]
    exact stream_twice _ _ _ rfl rfl _

/-- C113, GCM. Who changes what was sent or its tag so that they do not fit is found out; but the bytes have been written by then. -/
theorem c113_gcm_rejects (L : Lib) (d : Ctx) (hd : fresh 1 d) (u s : Bool) (c tag : List UInt8) (h : tag.take 16 ≠ L.mac key iv c) :
    (gcmDec L u s d c tag).ret = -1 ∧ (u = true → (gcmDec L u s d c tag).out = stream L d c) := by
  simp only [fresh, ctxInit, if_true, Bool.and_self, Option.some.injEq] at hd
  subst hd
  have hi : iv.take 16 = iv := rfl
  refine ⟨?_, ?_⟩ <;> cases u <;> cases s <;> simp [gcmDec, hi, h]

/-- C113, GCM. A context serves for one message: the second call is refused, whatever came of the first one. -/
theorem c113_gcm_once (L : Lib) (c : Ctx) (u f g u' f' g' : Bool) (p q t t' : List UInt8) :
    ((gcmEnc L u f g c p).ret ≠ -1 ∨ (gcmEnc L u f g c p).out ≠ [] → (gcmEnc L u' f' g' (gcmEnc L u f g c p).ctx q).ret = -1 ∧ (gcmEnc L u' f' g' (gcmEnc L u f g c p).ctx q).out = []) ∧
    ((gcmDec L u f c p t).ret ≠ -1 ∨ (gcmDec L u f c p t).out ≠ [] → (gcmDec L u' f' (gcmDec L u f c p t).ctx q t').ret = -1 ∧ (gcmDec L u' f' (gcmDec L u f c p t).ctx q t').out = []) := by
  refine ⟨fun h => ?_, fun h => ?_⟩
  · have hf : (gcmEnc L u f g c p).ctx.fresh = false := by
      revert h
      unfold gcmEnc
      split
      · split <;> (try split) <;> simp
      · simp
    constructor <;> rw [gcmEnc.eq_def, if_neg (by simp [hf])]
  · have hf : (gcmDec L u f c p t).ctx.fresh = false := by
      revert h
      unfold gcmDec
      split
      · split <;> (try split) <;> simp
      · simp
    constructor <;> rw [gcmDec.eq_def, if_neg (by simp [hf])]

/-- C113, secrecy of GCM is not there: a new context has the same key and the same IV as any other one, so two messages sent are different by exactly what the messages differ by,
byte for byte, for every cipher. -/
theorem c113_gcm_reveals_counterexample (L : Lib) (e e' : Ctx) (he : fresh 0 e) (he' : fresh 0 e') (p q : List UInt8) :
    xors (gcmEnc L true true true e p).out (gcmEnc L true true true e' q).out = xors p q := by
  simp only [fresh, ctxInit, if_true, Bool.and_self, Option.some.injEq] at he he'
  subst he; subst he'
  simp only [gcmEnc, Bool.and_self, decide_true, if_true, xors]
  apply List.ext_getElem (by simp [stream_length])
  intro i h1 h2
  simp only [List.length_zipWith, stream_length] at h1
  rw [List.getElem_zipWith, List.getElem_zipWith, stream_get _ _ _ _ (by omega), stream_get _ _ _ _ (by omega)]
  rw [UInt8.xor_assoc, UInt8.xor_comm q[i], ← UInt8.xor_assoc (L.ks _ _ _), UInt8.xor_self, UInt8.zero_xor]

/-- Case for the four: two messages, with the key stream of `exLib`. -/
example :
    let e := (ctxInit ⟨true, true, true, true, true⟩ 0).1.getD ⟨false, [], [], false⟩
    let d := (ctxInit ⟨true, true, true, true, true⟩ 1).1.getD ⟨true, [], [], false⟩
    let m := gcmEnc exLib true true true e [104, 105]
    m.ret = 2 ∧ m.out ≠ [104, 105] ∧ (gcmDec exLib true true d m.out (m.tag.getD [])).out = [104, 105] ∧ (gcmDec exLib true true d (m.out ++ [1]) (m.tag.getD [])).ret = -1 ∧
      (gcmEnc exLib true true true m.ctx [104, 105]).ret = -1 ∧ xors m.out (gcmEnc exLib true true true e [98, 121]).out = [104 ^^^ 98, 105 ^^^ 121] ∧ fresh 0 e ∧ fresh 1 d := by
  refine ⟨?_, ?_, ?_, ?_, ?_, ?_, rfl, rfl⟩ <;> decide +kernel

/-! ### Random numbers -/

/-- C113, random numbers. When the device can be opened and gives sixteen bytes, or cannot be opened, the sixteen bytes of the buffer are those bytes and nothing behind them changes; a
failed read is reported. -/
theorem c113_rand_partial (buf : List UInt8) (b : Nat → UInt8) (r : List UInt8) (hr : 16 ≤ r.length) :
    (genrand buf (.noDev b)).1 = 0 ∧ (∀ i, i < 16 → (genrand buf (.noDev b)).2[i]? = some (b i)) ∧ (genrand buf (.read r)).1 = 0 ∧ (∀ i, i < 16 → (genrand buf (.read r)).2[i]? = r[i]? ∧ r[i]? ≠ none) ∧
    (∀ i, 16 ≤ i → (genrand buf (.noDev b)).2[i]? = buf[i]? ∧ (genrand buf (.read r)).2[i]? = buf[i]?) ∧ (genrand buf .fail).1 = -1 := by
  refine ⟨rfl, fun i hi => ?_, rfl, fun i hi => ⟨?_, by simp; omega⟩, fun i hi => ⟨?_, ?_⟩, rfl⟩
  · simp only [genrand]
    rw [List.getElem?_append_left (by simpa using hi)]
    simp [List.getElem?_map, List.getElem?_range hi]
  · simp only [genrand]
    rw [List.getElem?_append_left (by simp; omega), List.getElem?_take, if_pos hi]
  · simp only [genrand]
    rw [List.getElem?_append_right (by simpa using hi)]
    simp only [List.length_map, List.length_range, List.getElem?_drop]
    congr 1; omega
  · simp only [genrand]
    rw [List.getElem?_append_right (by simp; omega)]
    simp only [List.length_take, List.getElem?_drop]
    congr 1; omega

/-- Missing from the full claim (a return value of 0 means sixteen random bytes): a read of fewer bytes is taken as a success, and the rest of the buffer is what it was. -/
theorem c113_rand_short_counterexample (buf r : List UInt8) (hr : r.length < 16) : (genrand buf (.read r)).1 = 0 ∧ ∀ i, r.length ≤ i → (genrand buf (.read r)).2[i]? = buf[i]? := by
  refine ⟨rfl, fun i hi => ?_⟩
  simp only [genrand]
  rw [List.take_of_length_le (by omega), List.getElem?_append_right hi, List.getElem?_drop]
  congr 1; omega

example : genrand (List.replicate 16 0) (.read [7, 9]) = (0, [7, 9] ++ List.replicate 14 0) ∧ (genrand (List.replicate 20 0) (.read (List.replicate 30 5))).2 = List.replicate 16 5 ++ [0, 0, 0, 0] := by
  decide +kernel

theorem cfb_mode (L : Lib) (k r p : List UInt8) (hr : r ≠ []) (i : Nat) (hi : i < p.length) :
    (cfbEnc L k r p)[i]'(by rw [cfbEnc_length]; exact hi) = p[i] ^^^ (L.aes k ((r ++ (cfbEnc L k r p).take i).drop i)).headD 0 := by
  induction p generalizing r i with
  | nil => simp at hi
  | cons x xs ih =>
    cases i with
    | zero => simp [cfbEnc, pad]
    | succ i =>
      simp only [cfbEnc, List.getElem_cons_succ, List.take_succ_cons]
      rw [ih _ (by simp) i (by simpa using hi)]
      congr 3
      cases r with
      | nil => exact absurd rfl hr
      | cons y r => simp

/-- C113, the mode is CFB with eight bits: each byte is combined with the first byte that the block cipher makes, with the key, of the sixteen bytes before it - of the IV and of what was written. -/
theorem c113_cfb_mode (L : Lib) (p : List UInt8) (hp : p ≠ []) :
    ∃ c, cfbEncrypt L allOk p p.length = some (c, (p.length : Int)) ∧ c.length = p.length ∧
      ∀ i (h : i < c.length) (h' : i < p.length), c[i] = p[i] ^^^ (L.aes key ((iv ++ c.take i).drop i)).headD 0 := by
  have hl : 1 ≤ p.length := by cases p; exact absurd rfl hp; simp
  refine ⟨cfbEnc L key iv p, ?_, cfbEnc_length .., fun i _ h' => cfb_mode L key iv p (by decide) i h'⟩
  rw [cfbEncrypt, if_neg (by omega), if_neg (by omega)]
  simp [allOk]

example : cfbEncrypt exLib allOk [1, 2, 3] 3 = some (cfbEnc exLib key iv [1, 2, 3], 3) ∧ iv.length = 16 := by decide +kernel

/-- C113, there is nothing to give back without a context. -/
theorem c113_no_context (held : Nat) : ctxExit none held = held ∧ ∀ c, ctxExit (some c) (held + 2) = held := ⟨rfl, fun _ => rfl⟩

end Verif.Cipher
