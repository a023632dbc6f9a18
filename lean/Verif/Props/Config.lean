import Verif.Proofs.Config
import Verif.Proofs.KeySize
import Verif.Props.Auth
/-
Properties C69 to C72: the configuration file, the ports served, the file of keys.
-/
namespace Verif.Config
open Verif.CJson Verif.CJson.Spec Verif.Config.Spec

/-- `s` is a JSON text for `j` within the parser's limits: nesting up to 1000 and numbers of at most 63 characters, which mean `den`. -/
def Doc (den : List UInt8 → Int) (s : List UInt8) (j : J Int) : Prop :=
  Val (fun s v => Spec.Number s ∧ s.length ≤ 63 ∧ v = den s) 1000 s j

/-- The library's `strtod` with the conversion to `valueint` gives JSON numbers the meaning `den`. -/
def Means (strtod : List UInt8 → Nat × Int) (den : List UInt8 → Int) : Prop := ∀ s, Spec.Number s → strtod s = (s.length, den s)

/-- Every call of `read` succeeds and returns at least one byte unless the file is at its end. -/
def Reading (rd : Nat → Option Nat) : Prop := ∀ o, ∃ k, rd o = some (k + 1)

theorem doc_nz {den : List UInt8 → Int} {w s w' : List UInt8} {j : J Int} (hw : Ws w) (hw' : Ws w') (h : Doc den s j) : 0 ∉ w ++ s ++ w' := by
  intro hc
  rcases List.mem_append.mp hc with hc | hc
  · rcases List.mem_append.mp hc with hc | hc
    · exact ws_nz hw 0 hc rfl
    · exact val_nz 1000 _ _ h 0 hc rfl
  · exact ws_nz hw' 0 hc rfl

theorem init_doc {strtod : List UInt8 → Nat × Int} {den : List UInt8 → Int} (hd : Means strtod den) {w s w' : List UInt8} {j : J Int} (hw : Ws w)
    (hw' : Ws w') (h : Doc den s j) {rd : Nat → Option Nat} (hr : Reading rd) :
    init strtod (some (w ++ s ++ w').length) (some (w ++ s ++ w')) rd = fill j := by
  rw [init_whole hr (doc_nz hw hw' h)]
  unfold parseText
  rw [c63_document_partial strtod den hd w s w' j hw hw' h]

/-! ### C69: the configuration in force is the one in the file -/

/-- C69. If the file is a JSON object whose members spell the settings `S`, in any order, with any white space and any further members, and `S` fits into
the program's fields, then the configuration in force after start-up is `S`, however the system splits the reads. Missing: settings that do not fit. -/
theorem c69_partial {strtod : List UInt8 → Nat × Int} {den : List UInt8 → Int} (hd : Means strtod den) (w s w' : List UInt8)
    (l : List (List UInt8 × J Int)) (hw : Ws w) (hw' : Ws w') (h : Doc den s (.obj l)) (rd : Nat → Option Nat) (hr : Reading rd) (S : Settings)
    (hS : Writes l S) (hF : Fits S) :
    ∃ c, init strtod (some (w ++ s ++ w').length) (some (w ++ s ++ w')) rd = .ok c ∧ Holds c S := by
  rw [init_doc hd hw hw' h hr]
  obtain ⟨c, hc, hh, _⟩ := fill_of hS hF
  exact ⟨c, hc, hh⟩

/-- C69 is false for a path that is not given as a string: start-up reads a NULL pointer. -/
theorem c69_type_counterexample {strtod : List UInt8 → Nat × Int} {den : List UInt8 → Int} (hd : Means strtod den) (w s w' : List UInt8)
    (l : List (List UInt8 × J Int)) (hw : Ws w) (hw' : Ws w') (h : Doc den s (.obj l)) (rd : Nat → Option Nat) (hr : Reading rd)
    (hn : ∀ m ∈ l, 0 ∉ m.1) (j : J Int) (hj : ∀ t, j ≠ .str t) (hk : Says l "ssl_crt_path" j) :
    init strtod (some (w ++ s ++ w').length) (some (w ++ s ++ w')) rd = .error .null := by
  rw [init_doc hd hw hw' h hr]
  unfold fill
  rw [item_says hn (by decide +kernel) hk]
  cases j with
  | str t => exact absurd rfl (hj t)
  | _ => rfl

/-- C69 is false for more than 64 web ports: the array is written beyond its end. -/
theorem c69_ports_counterexample {strtod : List UInt8 → Nat × Int} {den : List UInt8 → Int} (hd : Means strtod den) (w s w' : List UInt8)
    (l : List (List UInt8 × J Int)) (hw : Ws w) (hw' : Ws w') (h : Doc den s (.obj l)) (rd : Nat → Option Nat) (hr : Reading rd) (S : Settings)
    (hS : Writes l S) (hF : Fits { S with http := [] }) (hlong : 64 < S.http.length) :
    init strtod (some (w ++ s ++ w').length) (some (w ++ s ++ w')) rd = .error .bounds := by
  rw [init_doc hd hw hw' h hr]
  have hn := hS.names
  have hp : ports (item (.obj l) (nm "http_arr")) = .error .bounds := by
    rcases hS.http with ⟨_, h0⟩ | h0
    · rw [h0] at hlong; simp at hlong
    · rw [item_says hn (by decide +kernel) h0]
      unfold ports
      dsimp only
      rw [if_pos (by simpa [children] using hlong)]
  unfold fill
  rw [text_of hn (by decide +kernel) hF.crt hS.crt, text_of hn (by decide +kernel) hF.key hS.key, text_of hn (by decide +kernel) hF.authPath hS.authPath,
    text_of hn (by decide +kernel) hF.gw hS.gw, text_of hn (by decide +kernel) hF.localServIp hS.localServIp,
    text_of hn (by decide +kernel) hF.localAuth hS.localAuth, hp]
  rfl

/-- C69 is false for a port number from 65536 up: it is replaced by its remainder. -/
theorem c69_wrap_counterexample {strtod : List UInt8 → Nat × Int} {den : List UInt8 → Int} (hd : Means strtod den) (w s w' : List UInt8)
    (l : List (List UInt8 × J Int)) (hw : Ws w) (hw' : Ws w') (h : Doc den s (.obj l)) (rd : Nat → Option Nat) (hr : Reading rd) (S : Settings)
    (hS : Writes l S) (hF : Fits { S with localPort := 0 }) (hbig : 65536 ≤ S.localPort) :
    ∃ c, init strtod (some (w ++ s ++ w').length) (some (w ++ s ++ w')) rd = .ok c ∧ c.localPort = S.localPort % 65536 ∧ c.localPort ≠ S.localPort := by
  rw [init_doc hd hw hw' h hr]
  have hn := hS.names
  have hp : port 0 (item (.obj l) (nm "s5_local_port")) = S.localPort % 65536 := by
    rcases hS.localPort with ⟨_, h0⟩ | h0
    · rw [h0] at hbig; simp at hbig
    · rw [item_says hn (by decide +kernel) h0]
      simp only [port, valueint, ushort]
      omega
  obtain ⟨_, h2⟩ := ports_of hn (by decide +kernel) hF.http hS.http
  obtain ⟨_, h4⟩ := ports_of hn (by decide +kernel) hF.https hS.https
  unfold fill
  rw [text_of hn (by decide +kernel) hF.crt hS.crt, text_of hn (by decide +kernel) hF.key hS.key, text_of hn (by decide +kernel) hF.authPath hS.authPath,
    text_of hn (by decide +kernel) hF.gw hS.gw, text_of hn (by decide +kernel) hF.localServIp hS.localServIp,
    text_of hn (by decide +kernel) hF.localAuth hS.localAuth, h2, h4, text_of hn (by decide +kernel) hF.home hS.home,
    text_of hn (by decide +kernel) hF.index hS.index]
  refine ⟨_, rfl, ?_⟩
  dsimp only
  rw [hp]
  omega

/-- C69 is false for a number written as a string: it counts as 0. -/
theorem c69_string_counterexample {strtod : List UInt8 → Nat × Int} {den : List UInt8 → Int} (hd : Means strtod den) (w s w' : List UInt8)
    (l : List (List UInt8 × J Int)) (hw : Ws w) (hw' : Ws w') (h : Doc den s (.obj l)) (rd : Nat → Option Nat) (hr : Reading rd)
    (hn : ∀ m ∈ l, 0 ∉ m.1) (t : List UInt8) (c : Cfg)
    (hc : init strtod (some (w ++ s ++ w').length) (some (w ++ s ++ w')) rd = .ok c) :
    (Says l "s5_mode" (.str t) → c.mode = 0) ∧ (Says l "sys_process" (.str t) → c.process = 0) ∧
    (Says l "s5_local_port" (.str t) → c.localPort = 0) ∧ (Says l "s5_serv_port" (.str t) → c.servPort = 0) := by
  rw [init_doc hd hw hw' h hr] at hc
  unfold fill at hc
  simp only [bind, Except.bind, pure, Except.pure] at hc
  repeat' split at hc
  all_goals first | (cases hc; done) | skip
  rw [Except.ok.injEq] at hc
  subst hc
  dsimp only
  refine ⟨fun hs => ?_, fun hs => ?_, fun hs => ?_, fun hs => ?_⟩ <;> rw [item_says hn (by decide +kernel) hs] <;> rfl

/-- Case: `{"s5_local_port":"80"}`. -/
example : (match init (fun s => (s.length, 0)) (some "{\"s5_local_port\":\"80\"}".toUTF8.toList.length) (some "{\"s5_local_port\":\"80\"}".toUTF8.toList)
    (fun _ => some 4096) with | .ok c => c.localPort | .error _ => 1) = 0 := by decide +kernel

/-- C69 is false for a key of more than 32 bytes: it is cut without notice. -/
theorem c69_cut_counterexample {strtod : List UInt8 → Nat × Int} {den : List UInt8 → Int} (hd : Means strtod den) (w s w' : List UInt8)
    (l : List (List UInt8 × J Int)) (hw : Ws w) (hw' : Ws w') (h : Doc den s (.obj l)) (rd : Nat → Option Nat) (hr : Reading rd) (S : Settings)
    (hS : Writes l S) (hF : Fits { S with localAuth := [] }) (h0 : 0 ∉ S.localAuth) (hlong : 32 < S.localAuth.length) :
    ∃ c, init strtod (some (w ++ s ++ w').length) (some (w ++ s ++ w')) rd = .ok c ∧ c.localAuth = S.localAuth.take 32 ∧ c.localAuth ≠ S.localAuth := by
  rw [init_doc hd hw hw' h hr]
  have hn := hS.names
  have hp : text 32 (item (.obj l) (nm "s5_local_auth")) = .ok (S.localAuth.take 32) := by
    rcases hS.localAuth with ⟨_, h1⟩ | h1
    · rw [h1] at hlong; simp at hlong
    · rw [item_says hn (by decide +kernel) h1]
      simp only [text]
      rw [takeWhile_plain h0]
  obtain ⟨_, h2⟩ := ports_of hn (by decide +kernel) hF.http hS.http
  obtain ⟨_, h4⟩ := ports_of hn (by decide +kernel) hF.https hS.https
  unfold fill
  rw [text_of hn (by decide +kernel) hF.crt hS.crt, text_of hn (by decide +kernel) hF.key hS.key, text_of hn (by decide +kernel) hF.authPath hS.authPath,
    text_of hn (by decide +kernel) hF.gw hS.gw, text_of hn (by decide +kernel) hF.localServIp hS.localServIp,
    hp, h2, h4, text_of hn (by decide +kernel) hF.home hS.home,
    text_of hn (by decide +kernel) hF.index hS.index]
  refine ⟨_, rfl, rfl, ?_⟩
  intro he
  have := congrArg List.length he
  simp at this
  omega

/-! ### C70: an unusable file stops the program -/

/-- C70 as stated is false: a file that is missing, cannot be opened or is refused by the parser is ignored. The program goes on with its initial
configuration, start-up succeeds, and nothing listens. -/
theorem c70_ignored_counterexample (strtod : List UInt8 → Nat × Int) (rd : Nat → Option Nat) (hr : Reading rd) (sys : Nat → Bool) :
    (∀ file, init strtod none file rd = .ok { level := 255 }) ∧ (∀ n, init strtod (some n) none rd = .ok { level := 255 }) ∧
    (∀ f, 0 ∉ f → CJson.parse strtod f = .error .reject → init strtod (some f.length) (some f) rd = .ok { level := 255 }) ∧
    listenInit sys { level := 255 } = .ok (true, []) := by
  refine ⟨fun _ => rfl, fun _ => rfl, ?_, rfl⟩
  intro f hz hp
  rw [init_whole hr hz]
  unfold parseText
  rw [hp]
  rfl

/-- C70, a further gap: a file that has grown since its size was taken is read without a terminator, and the parser reads beyond the buffer. -/
theorem c70_grown_counterexample (strtod : List UInt8 → Nat × Int) (rd : Nat → Option Nat) (f : List UInt8) (n k : Nat) (h0 : 0 ∉ f) (hn : 0 < n)
    (hlen : n < f.length) (hk : rd 0 = some k) (hk2 : n < k) : init strtod (some n) (some f) rd = .error .bounds := by
  have hl : readLoop f rd n [] = f.take (n + 1) := by
    rw [readLoop.eq_def, dif_pos (by simpa using hn)]
    have hd : readAt f rd ([] : List UInt8).length (n + 1 - ([] : List UInt8).length) = some (f.take (n + 1)) := by
      unfold readAt
      simp only [List.length_nil, hk, Option.map_some, List.drop_zero, Nat.sub_zero, List.take_take]
      rw [Nat.min_eq_right (by omega)]
    rw [hd]
    cases hf : f with
    | nil => simp [hf] at hlen
    | cons b bs =>
      rw [List.take_succ_cons]
      dsimp only
      rw [readLoop.eq_def, dif_neg]
      · rfl
      · rw [hf] at hlen; simp at hlen ⊢; omega
  unfold init
  dsimp only
  rw [hl]
  unfold cstring
  rw [takeWhile_plain (fun hm => h0 (List.mem_of_mem_take hm)), if_pos (by simp; omega)]

/-- C70, the part that holds: for a file that does not change and can be read, the outcome depends on the contents only, not on how the system
splits the reads. Missing: an error for a file that cannot be read or is not JSON. -/
theorem c70_reads_partial (strtod : List UInt8 → Nat × Int) (rd rd' : Nat → Option Nat) (hr : Reading rd) (hr' : Reading rd') (f : List UInt8) (hz : 0 ∉ f) :
    init strtod (some f.length) (some f) rd = init strtod (some f.length) (some f) rd' := by
  rw [init_whole hr hz, init_whole hr' hz]

/-! ### C71: every configured port is served -/

/-- C71. If the file spells the settings `S` and they ask for at most eight ports, all of which can be bound, then start-up succeeds and exactly these
ports listen, each with its handler. Missing: more than eight ports. -/
theorem c71_served_partial {strtod : List UInt8 → Nat × Int} {den : List UInt8 → Int} (hd : Means strtod den) (w s w' : List UInt8)
    (l : List (List UInt8 × J Int)) (hw : Ws w) (hw' : Ws w') (h : Doc den s (.obj l)) (rd : Nat → Option Nat) (hr : Reading rd) (S : Settings)
    (hS : Writes l S) (hF : Fits S) (hn : (wanted S).length ≤ 8) (sys : Nat → Bool) (hsys : ∀ e ∈ wanted S, sys e.port = true) :
    ∃ c, init strtod (some (w ++ s ++ w').length) (some (w ++ s ++ w')) rd = .ok c ∧ listenInit sys c = .ok (true, wanted S) := by
  rw [init_doc hd hw hw' h hr]
  obtain ⟨c, hc, hh, h1, h2⟩ := fill_of hS hF
  refine ⟨c, hc, ?_⟩
  unfold listenInit
  rw [listenTable_of hh h1 h2 hF, List.take_of_length_le hn]
  dsimp only
  rw [listenStart_ok _ _ hsys]

/-- C71 as stated is false: of more than eight ports only the first eight are served, and start-up succeeds. -/
theorem c71_counterexample {strtod : List UInt8 → Nat × Int} {den : List UInt8 → Int} (hd : Means strtod den) (w s w' : List UInt8)
    (l : List (List UInt8 × J Int)) (hw : Ws w) (hw' : Ws w') (h : Doc den s (.obj l)) (rd : Nat → Option Nat) (hr : Reading rd) (S : Settings)
    (hS : Writes l S) (hF : Fits S) (hn : 8 < (wanted S).length) (sys : Nat → Bool) (hsys : ∀ e ∈ wanted S, sys e.port = true) :
    ∃ c, init strtod (some (w ++ s ++ w').length) (some (w ++ s ++ w')) rd = .ok c ∧ listenInit sys c = .ok (true, (wanted S).take 8) ∧
      (wanted S).take 8 ≠ wanted S := by
  rw [init_doc hd hw hw' h hr]
  obtain ⟨c, hc, hh, h1, h2⟩ := fill_of hS hF
  refine ⟨c, hc, ?_, ?_⟩
  · unfold listenInit
    rw [listenTable_of hh h1 h2 hF]
    dsimp only
    rw [listenStart_ok _ _ fun e he => hsys e (List.mem_of_mem_take he)]
  · intro he
    have := congrArg List.length he
    rw [List.length_take] at this
    omega

theorem listenStart_fail {sys : Nat → Bool} (u : List Entry) (n : Nat) {e : Entry} (he : e ∈ u) (h : sys e.port = false) :
    (listenStart sys (u.map some ++ List.replicate n none)).1 = false := by
  induction u with
  | nil => cases he
  | cons x u ih =>
    simp only [List.map_cons, List.cons_append, listenStart]
    rcases List.mem_cons.mp he with rfl | he
    · rw [if_neg (by simp [h])]
    · split
      · exact ih he
      · rfl

/-- C71: if one of at most eight ports cannot be bound, start-up fails; the program does not run with a part of its ports. -/
theorem c71_all_or_nothing_partial {strtod : List UInt8 → Nat × Int} {den : List UInt8 → Int} (hd : Means strtod den) (w s w' : List UInt8)
    (l : List (List UInt8 × J Int)) (hw : Ws w) (hw' : Ws w') (h : Doc den s (.obj l)) (rd : Nat → Option Nat) (hr : Reading rd) (S : Settings)
    (hS : Writes l S) (hF : Fits S) (hn : (wanted S).length ≤ 8) (sys : Nat → Bool) (e : Entry) (he : e ∈ wanted S) (hsys : sys e.port = false) :
    ∃ c r, init strtod (some (w ++ s ++ w').length) (some (w ++ s ++ w')) rd = .ok c ∧ listenInit sys c = .ok (false, r) := by
  rw [init_doc hd hw hw' h hr]
  obtain ⟨c, hc, hh, h1, h2⟩ := fill_of hS hF
  refine ⟨c, (listenStart sys ((wanted S).map some ++ List.replicate (8 - (wanted S).length) none)).2, hc, ?_⟩
  unfold listenInit
  rw [listenTable_of hh h1 h2 hF, List.take_of_length_le hn]
  dsimp only
  exact congrArg _ (Prod.ext (listenStart_fail _ _ he hsys) rfl)

/-! ### C72: the keys in force are the ones in the file -/

theorem keyStrings_of {ks : List (List UInt8)} (h : ∀ k ∈ ks, 0 ∉ k) : keyStrings (ks.map J.str) = .ok ks := by
  induction ks with
  | nil => rfl
  | cons k ks ih =>
    rw [List.map_cons, keyStrings, ih fun x hx => h x (by simp [hx]), takeWhile_plain (h k (by simp))]

/-- C72. If the key file is a JSON array of strings without NUL, at most 4096 bytes long, and one `read` returns all of it, then the keys in force are
exactly these strings. Missing: longer files, and reads that return less. -/
theorem c72_partial {strtod : List UInt8 → Nat × Int} {den : List UInt8 → Int} (hd : Means strtod den) (w s w' : List UInt8)
    (ks : List (List UInt8)) (hw : Ws w) (hw' : Ws w') (h : Doc den s (.arr (ks.map J.str))) (hk : ∀ k ∈ ks, 0 ∉ k) (rd : Nat → Option Nat) (n : Nat)
    (hr : rd 0 = some n) (hn : (w ++ s ++ w').length ≤ n) (hlen : (w ++ s ++ w').length ≤ 4096) :
    authKeys strtod (some (w ++ s ++ w')) rd = .ok (some ks) := by
  unfold authKeys readAt
  dsimp only
  rw [hr, Option.map_some, List.drop_zero, List.take_of_length_le (i := authMax) hlen, List.take_of_length_le hn]
  dsimp only
  rw [takeWhile_plain (doc_nz hw hw' h), c63_document_partial strtod den hd w s w' _ hw hw' h]
  dsimp only [children]
  rw [keyStrings_of hk]

/-- C72, from the file to the client: a client of this program that is configured with one of the keys, of at most 16 bytes, is admitted by a freshly started server
that could load the file. -/
theorem c72_admitted_partial {strtod : List UInt8 → Nat × Int} {den : List UInt8 → Int} (hd : Means strtod den) (w s w' : List UInt8)
    (ks : List (List UInt8)) (hw : Ws w) (hw' : Ws w') (h : Doc den s (.arr (ks.map J.str))) (hk : ∀ k ∈ ks, 0 ∉ k) (rd : Nat → Option Nat) (n : Nat)
    (hr : rd 0 = some n) (hn : (w ++ s ++ w').length ≤ n) (hlen : (w ++ s ++ w').length ≤ 4096)
    (k : List UInt8) (hmem : k ∈ ks) (hne : k ≠ []) (h16 : k.length ≤ 16) (rx : List Rx) (hrx : Auth.clientHeader k <+: streamOf rx) :
    ∃ keys, authKeys strtod (some (w ++ s ++ w')) rd = .ok (some keys) ∧
      ∀ m, Auth.load keys = .ok m → (Auth.authChk m rx).isAdmitted = true := by
  have hks := c72_partial hd w s w' ks hw hw' h hk rd n hr hn hlen
  refine ⟨ks, hks, ?_⟩
  intro m hm
  refine Auth.c12_clean_history_partial ks (authKeys_size hks) m hm [] ?_ k hmem hne h16 (fun b hb he => hk k hmem (he ▸ hb)) rx hrx
  intro n v l hv
  simp [Auth.attempts] at hv

/-- C14, from the file on: whatever a key file contains and however much of it is read, once its keys are taken, loading them ends without
overflowing the work stack, and either succeeds with links on which no authorisation can crash, or dereferences NULL. -/
theorem c14_file_partial (strtod : List UInt8 → Nat × Int) (file : Option (List UInt8)) (rd : Nat → Option Nat) (keys : List (List UInt8))
    (h : authKeys strtod file rd = .ok (some keys)) :
    Auth.load keys = .error .null ∨ ∃ m, Auth.load keys = .ok m ∧ ∀ l, ∀ e, Auth.authChk m l ≠ .crash e :=
  Auth.c14_terminates_partial keys (authKeys_size h)

/-- The file `["baxy","axz"]` is read as the two keys that make loading dereference NULL (`c14_counterexample`); `["ab"]` loads. -/
example : authKeys (fun s => (s.length, 0)) (some "[\"baxy\",\"axz\"]".toUTF8.toList) (fun _ => some 4096) =
      .ok (some [[98, 97, 120, 121], [97, 120, 122]]) ∧
    authKeys (fun s => (s.length, 0)) (some "[\"ab\"]".toUTF8.toList) (fun _ => some 4096) = .ok (some [[97, 98]]) ∧
    (Auth.load [[97, 98]]).isOk = true := by
  refine ⟨?_, ?_, ?_⟩ <;> decide +kernel

/-- C72 is false for a file with something other than strings: start-up takes the length of a NULL pointer. -/
theorem c72_type_counterexample {strtod : List UInt8 → Nat × Int} {den : List UInt8 → Int} (hd : Means strtod den) (w s w' : List UInt8)
    (xs : List (J Int)) (hw : Ws w) (hw' : Ws w') (h : Doc den s (.arr xs)) (j : J Int) (hj : j ∈ xs) (hj2 : ∀ t, j ≠ .str t) (rd : Nat → Option Nat) (n : Nat)
    (hr : rd 0 = some n) (hn : (w ++ s ++ w').length ≤ n) (hlen : (w ++ s ++ w').length ≤ 4096) :
    authKeys strtod (some (w ++ s ++ w')) rd = .error .null := by
  have hks : ∀ xs : List (J Int), j ∈ xs → keyStrings xs = .error .null := by
    intro xs
    induction xs with
    | nil => intro hx; cases hx
    | cons x xs ih =>
      intro hx
      cases x with
      | str t =>
        rcases List.mem_cons.mp hx with hx | hx
        · exact absurd hx (hj2 t)
        · rw [keyStrings, ih hx]
      | _ => rfl
  unfold authKeys readAt
  dsimp only
  rw [hr, Option.map_some, List.drop_zero, List.take_of_length_le (i := authMax) hlen, List.take_of_length_le hn]
  dsimp only
  rw [takeWhile_plain (doc_nz hw hw' h), c63_document_partial strtod den hd w s w' _ hw hw' h]
  dsimp only [children]
  rw [hks xs hj]

theorem scan_open {buf : List UInt8} (h : ∀ i (hi : i < buf.length), 2 ≤ i → buf[i] ≠ 0x22 ∧ buf[i] ≠ 0x5C) (n : Nat) :
    ∀ i sk, n = buf.length - i → 2 ≤ i → scan buf i sk = .error .reject := by
  induction n with
  | zero =>
    intro i sk hi _
    rw [scan.eq_def, dif_neg (by omega)]
  | succ n ih =>
    intro i sk hi h2
    rw [scan.eq_def, dif_pos (by omega), if_neg (h i (by omega) h2).1, if_neg (h i (by omega) h2).2]
    exact ih (i + 1) sk (by omega) (by omega)

theorem parse_open (strtod : List UInt8 → Nat × Int) (N : Nat) : CJson.parse strtod (0x5B :: 0x22 :: List.replicate N 0x61) = .error .reject := by
  have hz : (0 : UInt8) ∉ 0x5B :: 0x22 :: List.replicate N (0x61 : UInt8) := by
    intro h0
    simp only [List.mem_cons, List.mem_replicate] at h0
    rcases h0 with h0 | h0 | ⟨_, h0⟩ <;> revert h0 <;> decide
  unfold CJson.parse parseLen
  rw [takeWhile_plain hz, if_neg (by simp)]
  generalize hb : 0x5B :: 0x22 :: List.replicate N (0x61 : UInt8) ++ [0] = buf
  have hlen : buf.length = N + 3 := by rw [← hb]; simp
  have h0 : buf[0]? = some 0x5B := by rw [← hb]; rfl
  have h1 : buf[1]? = some 0x22 := by rw [← hb]; rfl
  have hd0 : buf.take 3 ≠ [0xEF, 0xBB, 0xBF] := by
    intro he
    have := congrArg (·[0]?) he
    simp [h0] at this
  have hbom : bom buf = 0 := by unfold bom; rw [if_neg fun h => hd0 h.2]
  have e0 : buf[0]'(by omega) = 0x5B := (List.getElem?_eq_some_iff.mp h0).2
  have e1 : buf[1]'(by omega) = 0x22 := (List.getElem?_eq_some_iff.mp h1).2
  have hs0 : skipWs buf 0 = 0 := by
    have : skipRun buf 0 = 0 := by rw [skipRun.eq_def, dif_pos (by omega), if_neg (by rw [e0]; decide)]
    unfold skipWs
    rw [if_pos (by omega), this, if_neg (by omega)]
  have hs1 : skipWs buf 1 = 1 := by
    have : skipRun buf 1 = 1 := by rw [skipRun.eq_def, dif_pos (by omega), if_neg (by rw [e1]; decide)]
    unfold skipWs
    rw [if_pos (by omega), this, if_neg (by omega)]
  have hword : ∀ i b, buf[i]? = some b → ∀ c w, c ≠ b → word buf i (c :: w) = false := by
    intro i b hi c w hc
    unfold word
    rw [decide_eq_false_iff_not]
    intro he
    have := congrArg (·[0]?) he
    simp [hi] at this
    exact hc this.symm
  have hscan : scan buf 2 0 = .error .reject := by
    apply scan_open (n := buf.length - 2) _ 2 0 rfl (Nat.le_refl 2)
    intro i hi h2
    have : buf[i] = 0x61 ∨ buf[i] = 0 := by
      have hm : buf[i] ∈ List.replicate N (0x61 : UInt8) ++ [0] := by
        have he : buf = [0x5B, 0x22] ++ (List.replicate N (0x61 : UInt8) ++ [0]) := by rw [← hb]; rfl
        have : buf[i] = (List.replicate N (0x61 : UInt8) ++ [0])[i - 2]'(by simp; omega) := by
          simp only [he]
          rw [List.getElem_append_right (by simpa using h2)]
          rfl
        rw [this]
        exact List.getElem_mem _
      rcases List.mem_append.mp hm with hm | hm
      · exact .inl (List.mem_replicate.mp hm).2
      · exact .inr (List.mem_singleton.mp hm)
    rcases this with h | h <;> rw [h] <;> decide
  have hstr : parseString buf 1 = .error .reject := by
    unfold parseString CJson.rd
    rw [h1]
    dsimp only
    rw [if_neg (by decide), hscan]
  have hval : ∀ n, value strtod buf n 1 = .error .reject := by
    intro n
    rw [value.eq_def, hword 1 _ h1 _ _ (by decide), hword 1 _ h1 _ _ (by decide), hword 1 _ h1 _ _ (by decide), h1]
    simp only [Bool.false_eq_true, if_false, if_true]
    rw [hstr]
  rw [hbom, hs0, value.eq_def, hword 0 _ h0 _ _ (by decide), hword 0 _ h0 _ _ (by decide), hword 0 _ h0 _ _ (by decide), h0]
  dsimp only
  simp only [Bool.false_eq_true, if_false]
  rw [if_neg (by decide), if_neg (by decide), if_pos trivial]
  unfold array
  rw [hs1]
  have hat : isAt buf 1 0x5D = false := by unfold isAt; rw [h1]; decide
  simp only [hat, Bool.false_eq_true, if_false]
  rw [if_neg (by omega), elems.eq_def]
  simp only [Nat.sub_self, Nat.zero_add, hs1, hval]

theorem authKeys_cut (strtod : List UInt8 → Nat × Int) (n M : Nat) (hM : authMax = M + 2) (hn : M ≤ n) (rd : Nat → Option Nat) (m : Nat)
    (hr : rd 0 = some m) (hm : M + 2 ≤ m) :
    authKeys strtod (some (0x5B :: 0x22 :: (List.replicate n 0x61 ++ [0x22, 0x5D]))) rd = .ok (some []) := by
  have hcut : ((0x5B :: 0x22 :: (List.replicate n (0x61 : UInt8) ++ [0x22, 0x5D])).take (M + 2)).take m = 0x5B :: 0x22 :: List.replicate M 0x61 := by
    rw [List.take_take, Nat.min_eq_right hm, List.take_succ_cons, List.take_succ_cons,
      List.take_append_of_le_length (by simp only [List.length_replicate]; omega), List.take_replicate, Nat.min_eq_left hn]
  unfold authKeys readAt
  rw [hM]
  dsimp only
  rw [hr, Option.map_some, List.drop_zero, hcut]
  dsimp only
  rw [takeWhile_plain (by
    intro h0
    simp only [List.mem_cons, List.mem_replicate] at h0
    rcases h0 with h0 | h0 | ⟨_, h0⟩ <;> revert h0 <;> decide), parse_open]

/-- C72 is false for long files: an array holding one key of `n` letters `a` with `n ≥ 4094` is cut, refused by the parser, and leaves the server without any key;
start-up succeeds. -/
theorem c72_long_counterexample (strtod : List UInt8 → Nat × Int) (n : Nat) (hn : 4094 ≤ n) (rd : Nat → Option Nat) (m : Nat) (hr : rd 0 = some m)
    (hm : 4096 ≤ m) :
    authKeys strtod (some (0x5B :: 0x22 :: (List.replicate n 0x61 ++ [0x22, 0x5D]))) rd = .ok (some []) :=
  authKeys_cut strtod n 4094 rfl hn rd m hr hm

/-! ### Concrete files -/

theorem plain_str (t : List UInt8) (h : ∀ b ∈ t, 0x20 ≤ b.toNat ∧ b.toNat < 0x80 ∧ b.toNat ≠ 0x22 ∧ b.toNat ≠ 0x5C) : Str t t := by
  induction t with
  | nil => exact .nil
  | cons b t ih =>
    obtain ⟨h1, h2, h3, h4⟩ := h b (by simp)
    have e : utf8 b.toNat = [b] := by unfold utf8; rw [if_pos h2, UInt8.ofNat_toNat]
    have u : Spec.Unit (utf8 b.toNat) (utf8 b.toNat) := .raw b.toNat (.inl (by omega)) h1 h3 h4
    rw [e] at u
    exact .cons [b] [b] t t u (ih fun x hx => h x (by simp [hx]))

theorem val_digits {den : List UInt8 → Int} (n : Nat) (s : List UInt8) (h : Digits s) (h0 : s.head? ≠ some 0x30) (hl : s.length ≤ 63) (v : Int) (hv : v = den s) :
    Val (fun s v => Spec.Number s ∧ s.length ≤ 63 ∧ v = den s) n s (.num v) := by
  unfold Val
  exact .inr (.inr (.inr (.inl ⟨_, ⟨⟨[], s, [], [], by simp, .inl rfl, h, .inr h0, .inl rfl, .inl rfl⟩, hl, hv⟩, rfl⟩)))

theorem val_str {den : List UInt8 → Int} (n : Nat) (t : List UInt8) (h : Str t t) :
    Val (fun s v => Spec.Number s ∧ s.length ≤ 63 ∧ v = den s) n (0x22 :: t ++ [0x22]) (.str t) := by
  unfold Val
  exact .inr (.inr (.inr (.inr (.inl ⟨t, t, h, rfl, rfl⟩))))

theorem val_arr {den : List UInt8 → Int} (n : Nat) (xs : List (List UInt8 × J Int)) (hne : xs ≠ [])
    (h : ∀ x ∈ xs, Val (fun s v => Spec.Number s ∧ s.length ≤ 63 ∧ v = den s) n x.1 x.2) :
    Val (fun s v => Spec.Number s ∧ s.length ≤ 63 ∧ v = den s) (n + 1) (0x5B :: commas (xs.map Prod.fst) ++ [0x5D]) (.arr (xs.map Prod.snd)) := by
  unfold Val
  refine .inr (.inr (.inr (.inr (.inr (.inr (.inr (.inl ⟨xs.map fun x => ([], x.1, [], x.2), by simpa using hne, ?_, ?_, ?_⟩)))))))
  · intro x hx
    obtain ⟨y, hy, rfl⟩ := List.mem_map.mp hx
    exact ⟨fun b hb => (by cases hb), h y hy, fun b hb => (by cases hb)⟩
  · simp [Function.comp_def]
  · simp [Function.comp_def]

theorem val_one {den : List UInt8 → Int} (n : Nat) (k s : List UInt8) (j : J Int) (hk : Str k k)
    (h : Val (fun s v => Spec.Number s ∧ s.length ≤ 63 ∧ v = den s) n s j) :
    Val (fun s v => Spec.Number s ∧ s.length ≤ 63 ∧ v = den s) (n + 1) (0x7B :: 0x22 :: k ++ 0x22 :: 0x3A :: s ++ [0x7D]) (.obj [(k, j)]) := by
  unfold Val
  refine .inr (.inr (.inr (.inr (.inr (.inr (.inr (.inr ⟨[(([], k, k, []), [], s, [], j)], by simp, ?_, ?_, rfl⟩)))))))
  · intro x hx
    rw [List.mem_singleton.mp hx]
    exact ⟨fun b hb => (by cases hb), hk, fun b hb => (by cases hb), fun b hb => (by cases hb), h, fun b hb => by cases hb⟩
  · simp [commas]

/-- Settings of a file that says nothing. -/
def blank : Settings := ⟨0, 0, 255, [], [], 0, 0, [], [], 0, 0, [], [], [], [], [], []⟩

theorem blank_fits : Fits blank := by
  constructor <;> first | exact ⟨by simp [blank], by simp [blank]⟩ | (simp [blank])

/-- The meaning of a decimal number. -/
def decimal (s : List UInt8) : Int := s.foldl (fun a b => 10 * a + (b.toNat - 48 : Nat)) 0

theorem means_decimal : Means (fun s => (s.length, decimal s)) decimal := fun _ _ => rfl

theorem ws_nil : Ws [] := fun b hb => by cases hb

/-- The file `{"http_arr":[80,...,80]}` with `n` ports. -/
def webFile (n : Nat) : List UInt8 :=
  0x7B :: 0x22 :: nm "http_arr" ++ 0x22 :: 0x3A :: (0x5B :: commas (List.replicate n (nm "80")) ++ [0x5D]) ++ [0x7D]

theorem web_doc (n : Nat) (h : n ≠ 0) : Doc decimal (webFile n) (.obj [(nm "http_arr", .arr (List.replicate n (.num 80)))]) := by
  have := val_arr (den := decimal) 998 (List.replicate n (nm "80", .num 80)) (by simpa using h) (by
    intro x hx
    rw [(List.mem_replicate.mp hx).2]
    exact val_digits 998 (nm "80") ⟨by decide +kernel, by decide +kernel⟩ (by decide +kernel) (by decide +kernel) 80 (by decide +kernel))
  rw [List.map_replicate, List.map_replicate] at this
  exact val_one 999 (nm "http_arr") _ _ (plain_str _ (by decide +kernel)) this

theorem web_writes (n : Nat) : Writes [(nm "http_arr", .arr (List.replicate n (.num 80)))] { blank with http := List.replicate n 80 } := by
  have hs : ∀ k : String, ¬ Alike k.toUTF8.toList (nm "http_arr") → Silent [(nm "http_arr", J.arr (List.replicate n (.num (80 : Int))))] k := by
    intro k hk m hm
    rw [List.mem_singleton.mp hm]; exact hk
  have nsil : ∀ k : String, k.toUTF8.toList.map up ≠ (nm "http_arr").map up → ¬ Alike k.toUTF8.toList (nm "http_arr") := fun k h => h
  constructor
  case names =>
    intro m hm
    rw [List.mem_singleton.mp hm]
    show 0 ∉ nm "http_arr"
    decide +kernel
  case http =>
    right
    exact ⟨[], [], by simp [nm], fun m hm => (by cases hm), fun m hm => by cases hm⟩
  all_goals exact .inl ⟨hs _ (nsil _ (by decide +kernel)), rfl⟩

theorem web_fits (n : Nat) (h : n ≤ 64) : Fits { blank with http := List.replicate n 80 } := by
  have hb := blank_fits
  exact ⟨hb.crt, hb.key, hb.servPort, hb.authPath, hb.gw, hb.localPort, hb.localServPort, hb.localServIp, hb.localAuth,
    ⟨by simpa using h, fun p hp => by rw [(List.mem_replicate.mp hp).2]; decide⟩, hb.https, hb.home, hb.index⟩

/-- The hypotheses of `c69_partial` and `c71_served_partial` hold for `{"http_arr":[80]}`: after start-up port 80, and no other, is served by the web server. -/
example : ∃ c, init (fun s => (s.length, decimal s)) (some ([] ++ webFile 1 ++ []).length) (some ([] ++ webFile 1 ++ [])) (fun _ => some 1) = .ok c ∧
    listenInit (fun _ => true) c = .ok (true, [⟨80, .web, false⟩]) :=
  c71_served_partial means_decimal [] (webFile 1) [] _ ws_nil ws_nil (web_doc 1 (by decide)) _ (fun _ => ⟨0, rfl⟩) { blank with http := [80] } (web_writes 1)
    (web_fits 1 (by decide)) (by decide) _ (fun _ _ => rfl)

/-- The hypotheses of `c71_counterexample` hold for nine ports. -/
example : ∃ c, init (fun s => (s.length, decimal s)) (some ([] ++ webFile 9 ++ []).length) (some ([] ++ webFile 9 ++ [])) (fun _ => some 1) = .ok c ∧
    listenInit (fun _ => true) c = .ok (true, List.replicate 8 ⟨80, .web, false⟩) := by
  obtain ⟨c, h1, h2, _⟩ := c71_counterexample means_decimal [] (webFile 9) [] _ ws_nil ws_nil (web_doc 9 (by decide)) _ (fun _ => ⟨0, rfl⟩)
    { blank with http := List.replicate 9 80 } (web_writes 9) (web_fits 9 (by decide)) (by decide) (fun _ => true) (fun _ _ => rfl)
  exact ⟨c, h1, h2⟩

/-- The hypotheses of `c71_all_or_nothing_partial` hold for a port that is taken. -/
example : ∃ c r, init (fun s => (s.length, decimal s)) (some ([] ++ webFile 1 ++ []).length) (some ([] ++ webFile 1 ++ [])) (fun _ => some 7) = .ok c ∧
    listenInit (fun p => p != 80) c = .ok (false, r) :=
  c71_all_or_nothing_partial means_decimal [] (webFile 1) [] _ ws_nil ws_nil (web_doc 1 (by decide)) _ (fun _ => ⟨6, rfl⟩) { blank with http := [80] } (web_writes 1)
    (web_fits 1 (by decide)) (by decide) _ ⟨80, .web, false⟩ (by decide) (by decide)

/-- The hypotheses of `c69_ports_counterexample` hold for 65 ports. -/
example : init (fun s => (s.length, decimal s)) (some ([] ++ webFile 65 ++ []).length) (some ([] ++ webFile 65 ++ [])) (fun _ => some 1) = .error .bounds :=
  c69_ports_counterexample means_decimal [] (webFile 65) [] _ ws_nil ws_nil (web_doc 65 (by decide)) _ (fun _ => ⟨0, rfl⟩)
    { blank with http := List.replicate 65 80 } (web_writes 65) blank_fits (by decide)

/-- The file `{"ssl_crt_path":1}` meets the hypotheses of `c69_type_counterexample`. -/
example : Doc decimal (0x7B :: 0x22 :: nm "ssl_crt_path" ++ 0x22 :: 0x3A :: nm "1" ++ [0x7D]) (.obj [(nm "ssl_crt_path", .num 1)]) ∧
    Says [(nm "ssl_crt_path", .num 1)] "ssl_crt_path" (.num 1) :=
  ⟨val_one 999 (nm "ssl_crt_path") _ _ (plain_str _ (by decide +kernel)) (val_digits 999 (nm "1") ⟨by decide +kernel, by decide +kernel⟩ (by decide +kernel) (by decide +kernel) 1 (by decide +kernel)),
    [], [], rfl, fun m hm => (by cases hm), fun m hm => by cases hm⟩

/-- The file `{"s5_local_port":65616}` meets the hypotheses of `c69_wrap_counterexample`; port 80 is used instead. -/
example : ∃ c, init (fun s => (s.length, decimal s))
      (some ([] ++ (0x7B :: 0x22 :: nm "s5_local_port" ++ 0x22 :: 0x3A :: nm "65616" ++ [0x7D]) ++ []).length)
      (some ([] ++ (0x7B :: 0x22 :: nm "s5_local_port" ++ 0x22 :: 0x3A :: nm "65616" ++ [0x7D]) ++ [])) (fun _ => some 1) = .ok c ∧ c.localPort = 80 := by
  have hs : ∀ k : String, k.toUTF8.toList.map up ≠ (nm "s5_local_port").map up → Silent [(nm "s5_local_port", J.num (65616 : Int))] k := by
    intro k hk m hm
    rw [List.mem_singleton.mp hm]; exact hk
  have hW : Writes [(nm "s5_local_port", J.num (65616 : Int))] { blank with localPort := 65616 } := by
    constructor
    case names => intro m hm; rw [List.mem_singleton.mp hm]; decide +kernel
    case localPort => exact .inr ⟨[], [], rfl, fun m hm => (by cases hm), fun m hm => by cases hm⟩
    all_goals exact .inl ⟨hs _ (by decide +kernel), rfl⟩
  have hD := val_one (den := decimal) 999 (nm "s5_local_port") _ _ (plain_str _ (by decide +kernel))
    (val_digits 999 (nm "65616") ⟨by decide +kernel, by decide +kernel⟩ (by decide +kernel) (by decide +kernel) 65616 (by decide +kernel))
  obtain ⟨c, h1, h2, _⟩ := c69_wrap_counterexample means_decimal [] _ [] _ ws_nil ws_nil hD (fun _ => some 1) (fun _ => ⟨0, rfl⟩)
    { blank with localPort := 65616 } hW blank_fits (by decide)
  exact ⟨c, h1, h2⟩

/-- A key of 33 letters meets the hypotheses of `c69_cut_counterexample`. -/
example : ∃ c, init (fun s => (s.length, decimal s))
      (some ([] ++ (0x7B :: 0x22 :: nm "s5_local_auth" ++ 0x22 :: 0x3A :: (0x22 :: List.replicate 33 0x61 ++ [0x22]) ++ [0x7D]) ++ []).length)
      (some ([] ++ (0x7B :: 0x22 :: nm "s5_local_auth" ++ 0x22 :: 0x3A :: (0x22 :: List.replicate 33 0x61 ++ [0x22]) ++ [0x7D]) ++ [])) (fun _ => some 1) = .ok c ∧
    c.localAuth = List.replicate 32 0x61 := by
  have hs : ∀ k : String, k.toUTF8.toList.map up ≠ (nm "s5_local_auth").map up → Silent [(nm "s5_local_auth", (J.str (List.replicate 33 0x61) : J Int))] k := by
    intro k hk m hm
    rw [List.mem_singleton.mp hm]; exact hk
  have hW : Writes [(nm "s5_local_auth", (J.str (List.replicate 33 0x61) : J Int))] { blank with localAuth := List.replicate 33 0x61 } := by
    constructor
    case names => intro m hm; rw [List.mem_singleton.mp hm]; decide +kernel
    case localAuth => exact .inr ⟨[], [], rfl, fun m hm => (by cases hm), fun m hm => by cases hm⟩
    all_goals exact .inl ⟨hs _ (by decide +kernel), rfl⟩
  have hD := val_one (den := decimal) 999 (nm "s5_local_auth") _ _ (plain_str _ (by decide +kernel))
    (val_str 999 (List.replicate 33 0x61) (plain_str _ (by decide +kernel)))
  obtain ⟨c, h1, h2, _⟩ := c69_cut_counterexample means_decimal [] _ [] _ ws_nil ws_nil hD (fun _ => some 1) (fun _ => ⟨0, rfl⟩)
    { blank with localAuth := List.replicate 33 0x61 } hW blank_fits (by decide) (by decide)
  exact ⟨c, h1, h2⟩

/-- The hypotheses of `c70_ignored_counterexample` and `c70_reads_partial` hold for the file `[`, which the parser refuses. -/
example : (0 : UInt8) ∉ [(0x5B : UInt8), 0x22] ∧ CJson.parse (fun s => (s.length, decimal s)) [0x5B, 0x22] = .error .reject ∧ Reading (fun _ => some 1) :=
  ⟨by decide, parse_open _ 0, fun _ => ⟨0, rfl⟩⟩

/-- The hypotheses of `c70_grown_counterexample` hold for a file of one byte that grew to two. -/
example : init (fun s => (s.length, decimal s)) (some 1) (some [0x5B, 0x5D]) (fun _ => some 2) = .error .bounds :=
  c70_grown_counterexample _ _ _ 1 2 (by decide) (by decide) (by decide) rfl (by decide)

/-- The file `["ab","c"]` meets the hypotheses of `c72_partial` and `c72_admitted_partial`. -/
example : authKeys (fun s => (s.length, decimal s)) (some ([] ++ nm "[\"ab\",\"c\"]" ++ [])) (fun _ => some 4096) = .ok (some [nm "ab", nm "c"]) ∧
    ∃ m, Auth.load [nm "ab", nm "c"] = .ok m := by
  have hD := val_arr (den := decimal) 999 [(0x22 :: nm "ab" ++ [0x22], .str (nm "ab")), (0x22 :: nm "c" ++ [0x22], .str (nm "c"))] (by simp) (by
    intro x hx
    simp only [List.mem_cons, List.not_mem_nil, or_false] at hx
    rcases hx with rfl | rfl
    · exact val_str 999 _ (plain_str _ (by decide +kernel))
    · exact val_str 999 _ (plain_str _ (by decide +kernel)))
  have e : 0x5B :: commas ([(0x22 :: nm "ab" ++ [0x22], (J.str (nm "ab") : J Int)), (0x22 :: nm "c" ++ [0x22], .str (nm "c"))].map Prod.fst) ++ [0x5D] =
      nm "[\"ab\",\"c\"]" := by simp only [List.map_cons, List.map_nil, commas]; decide +kernel
  rw [e] at hD
  refine ⟨c72_partial means_decimal [] _ [] [nm "ab", nm "c"] ws_nil ws_nil hD (by decide +kernel) _ 4096 rfl (by decide +kernel) (by decide +kernel), ?_⟩
  exact Auth.c14_fresh_heads_partial _ (by decide +kernel) (by unfold Auth.HeadsFresh; decide +kernel)

/-- The file `[1]` meets the hypotheses of `c72_type_counterexample`. -/
example : Doc decimal (nm "[1]") (.arr [.num 1]) := by
  have hD := val_arr (den := decimal) 999 [(nm "1", .num 1)] (by simp) (by
    intro x hx
    rw [List.mem_singleton.mp hx]
    exact val_digits 999 (nm "1") ⟨by decide +kernel, by decide +kernel⟩ (by decide +kernel) (by decide +kernel) 1 (by decide +kernel))
  have e : 0x5B :: commas ([(nm "1", (J.num 1 : J Int))].map Prod.fst) ++ [0x5D] = nm "[1]" := by simp only [List.map_cons, List.map_nil, commas]; decide +kernel
  rw [e] at hD
  exact hD

end Verif.Config
