import Verif.Proofs.Web
import Verif.Props.HttpReq
import Verif.Props.Mem
/-
Properties C33 (root directory), C34 (file streaming), C35 (content types), C36 (API dispatch), C53 (no request kills the worker) and
C54 (status lines).
-/
namespace Verif.Web
open Verif.WebSpec
open Verif.Http (Meth)

/-! ### C36 -/

/-- C36. For every list of registrations (in order, keys of at most 31 bytes) the handler found is the one of the first registration with
exactly the path and the method of the request, and none is found exactly if there is no such registration. -/
theorem c36_exact (regs : List (List UInt8 × Meth × Nat)) (hk : ∀ r ∈ regs, r.1.length ≤ 31) (uri : List UInt8) (m : Meth) :
    (apiFind (regs.foldl (fun l r => apiReg l r.1 r.2.1 r.2.2) []) uri m).map (·.handler) =
      (regs.find? fun r => r.1 = uri ∧ r.2.1 = m).map (·.2.2) := by
  have hf : ∀ (l : List Api) (uri : List UInt8) (m : Meth), apiFind l uri m = l.find? fun a => a.key = uri ∧ a.method = m := by
    intro l uri m
    induction l with
    | nil => rfl
    | cons a l ih =>
      simp only [apiFind, List.find?_cons]
      by_cases h1 : a.key = uri
      · by_cases h2 : a.method = m
        · simp [h1, h2]
        · simp [h1, h2, Ne.symm h2, ih]
      · have : ¬ (decide (a.key = uri ∧ a.method = m) = true) := by simp [h1]
        rw [Bool.eq_false_iff.mpr this]
        simp only [ne_eq, h1, not_false_eq_true, if_true, ite_self]
        exact ih
  have hr : ∀ (regs : List (List UInt8 × Meth × Nat)) (l : List Api), (∀ r ∈ regs, r.1.length ≤ 31) →
      regs.foldl (fun l r => apiReg l r.1 r.2.1 r.2.2) l = l ++ regs.map fun r => ⟨r.1, r.2.1, r.2.2⟩ := by
    intro regs
    induction regs with
    | nil => simp
    | cons r regs ih =>
      intro l h
      rw [List.foldl_cons, ih _ (fun r hr => h r (List.mem_cons_of_mem _ hr))]
      have : ¬ r.1.length > 31 := by have := h r (by simp); omega
      simp [apiReg, this]
  rw [hr regs [] hk, List.nil_append, hf, List.find?_map]
  simp only [Option.map_map]
  rfl

/-- Case: two handlers for the same path and different methods, one registered twice. -/
example : (apiFind ([(str "/a", Meth.get, 1), (str "/a", Meth.post, 2), (str "/a", Meth.get, 3)].foldl (fun l r => apiReg l r.1 r.2.1 r.2.2) []) (str "/a") .get).map
    (·.handler) = some 1 := by decide +kernel

/-- C36, as a condition: a request with target `uri` and method `m` reaches an API handler iff one is registered for exactly that path and
method; otherwise no handler runs. -/
theorem c36_iff (l : List Api) (uri : List UInt8) (m : Meth) (stack : List UInt8) :
    (∃ a, route l uri.length uri m stack = .api a) ↔ ∃ a ∈ l, a.key = uri ∧ a.method = m := by
  have hf : ∀ (l : List Api), (∃ a, apiFind l uri m = some a) ↔ ∃ a ∈ l, a.key = uri ∧ a.method = m := by
    intro l
    induction l with
    | nil => simp [apiFind]
    | cons a l ih =>
      simp only [apiFind, List.mem_cons, exists_eq_or_imp]
      by_cases h1 : a.key = uri
      · by_cases h2 : a.method = m
        · simp [h1, h2]
        · simp [h1, h2, Ne.symm h2, ih]
      · simp only [ne_eq, h1, not_false_eq_true, if_true, ite_self, false_and, false_or]
        exact ih
  rw [← hf l]
  unfold route
  rw [if_neg (by omega)]
  cases h : apiFind l uri m with
  | some a => simp
  | none =>
    simp only [reduceCtorEq, exists_false, iff_false, not_exists]
    intro a
    by_cases hm : m = .get
    · simp only [hm, ne_eq, not_true_eq_false, if_false]
      rw [if_neg (by omega)]
      generalize hasDotDotSlash _ = z
      cases z <;> simp
    · simp [hm]

/-- C36 fails for long paths: a handler registered under a path of more than 31 bytes answers its first seven bytes instead. -/
theorem c36_long_path_counterexample (key : List UInt8) (hk : 31 < key.length) (m : Meth) (h : Nat) :
    (apiFind (apiReg [] key m h) key m = none) ∧ (apiFind (apiReg [] key m h) (key.take 7) m).map (·.handler) = some h := by
  have ht : (key.take 7).length = 7 := by simp; omega
  constructor
  · simp only [apiReg, List.nil_append, apiFind, if_pos hk, ht]
    rw [if_pos (by omega)]
  · simp [apiReg, apiFind, hk]

/-- Case: a path of 32 bytes. -/
example : apiFind (apiReg [] (List.replicate 32 97) .get 4) (List.replicate 32 97) .get = none ∧
    (apiFind (apiReg [] (List.replicate 32 97) .get 4) (List.replicate 7 97) .get).map (·.handler) = some 4 := by
  have := c36_long_path_counterexample (List.replicate 32 97) (by simp) .get 4
  exact ⟨this.1, this.2⟩

/-- C36 fails for the method: the method is compared as a prefix without regard to case, so `G` and `p` run the handlers of
GET and POST. -/
theorem c36_method_prefix_counterexample :
    (apiFind apis (str "/echo") (Http.methodTyp [71])).map (·.handler) = some 0 ∧
    (apiFind apis (str "/echo") (Http.methodTyp [112])).map (·.handler) = some 1 := by
  decide +kernel

/-- The registered handlers (`c36_iff`): `/echo` for GET and for POST; other paths reach none. -/
example : (apiFind apis (str "/echo") .get).map (·.handler) = some 0 ∧ (apiFind apis (str "/echo") .post).map (·.handler) = some 1 ∧
    apiFind apis (str "/echoes") .get = none := by
  decide +kernel

/-! ### C33 -/

/-- C33. Targets shorter than 1024 bytes: one with a parent directory component followed by anything is not served from the file
system (it is refused unless it is an API path). -/
theorem c33_refused_partial (l : List Api) (uri : List UInt8) (hl : uri.length < 1024) (m : Meth) (stack : List UInt8)
    (h : [46, 46] ∈ (comps uri).dropLast) (hn : ∀ a ∈ l, a.key ≠ uri) : route l uri.length uri m stack = .close := by
  have ho := (dds_iff uri).mpr (comps_dds uri h)
  have hf : ∀ l : List Api, (∀ a ∈ l, a.key ≠ uri) → apiFind l uri m = none := by
    intro l hl
    induction l with
    | nil => rfl
    | cons a l ih =>
      simp only [apiFind]
      rw [if_pos (hl a (by simp)), ih fun a h => hl a (List.mem_cons_of_mem _ h)]
      simp
  unfold route
  rw [if_neg (by omega), hf l hn]
  simp only
  by_cases hm : m = .get
  · simp only [hm, ne_eq, not_true_eq_false, if_false]
    rw [if_neg (by omega), if_pos hl, List.append_nil, List.take_of_length_le (by omega), if_pos ho]
  · simp [hm]

/-- C33. Conversely, ordinary targets are served: without `../` in a short target a GET request reaches the file system. -/
theorem c33_served (l : List Api) (uri : List UInt8) (hl : uri.length < 1024) (stack : List UInt8)
    (h : ¬ Occurs [46, 46, 47] uri) (hn : ∀ a ∈ l, ¬ (a.key = uri ∧ a.method = .get)) :
    route l uri.length uri .get stack = .file := by
  have ha : ∀ a, route l uri.length uri .get stack ≠ .api a := by
    intro a e
    obtain ⟨b, hb, he⟩ := (c36_iff l uri .get stack).mp ⟨a, e⟩
    exact hn b hb he
  have ho : ¬ hasDotDotSlash uri = true := fun hc => h ((dds_iff uri).mp hc)
  unfold route at ha ⊢
  rw [if_neg (by omega)] at ha ⊢
  cases hf : apiFind l uri .get with
  | some a => rw [hf] at ha; exact absurd rfl (ha a)
  | none =>
    simp only [ne_eq, not_true_eq_false, if_false]
    rw [if_neg (by omega), if_pos hl, List.append_nil, List.take_of_length_le (by omega), if_neg ho]

/-- Case: `/a/b.css`. -/
example : route apis (str "/a/b.css").length (str "/a/b.css") .get [] = .file :=
  c33_served apis (str "/a/b.css") (by decide +kernel) [] (fun h => absurd ((dds_iff _).mpr h) (by decide +kernel))
    (by decide +kernel)

/-- C33. The path opened is the root followed by the target, and by the index name for a target ending with a slash, when everything fits
the path buffer. -/
theorem c33_path (home index uri : List UInt8) (hu : uri ≠ []) (hl : home.length + uri.length + index.length < 2048) :
    filePath home index uri = .ok (home ++ uri ++ (if uri.getLast? = some 47 then index else [])) := by
  have e : pathn = 2048 := rfl
  have h1 := snp_ok [] home (by simp only [List.length_nil]; omega)
  have h2 := snp_ok home uri (by omega)
  have h3 := snp_ok (home ++ uri) index (by simp only [List.length_append]; omega)
  simp only [List.length_nil, List.nil_append] at h1
  have hp : uri.length > 0 := List.length_pos_iff.mpr hu
  simp only [filePath, h1, hp, if_true, h2]
  split
  · rw [h3]
  · rw [List.append_nil]

/-- C33. Whatever the lengths are, the path opened starts with the root. -/
theorem c33_root_prefix (home index uri p : List UInt8) (hh : home.length < 2048) (h : filePath home index uri = .ok p) :
    home <+: p := by
  change home.length < pathn at hh
  have hs : ∀ (q : List UInt8) (s : Nat) (x r : List UInt8) (s' : Nat), q.length < pathn → snp q s x = some (r, s') →
      q <+: r ∧ r.length < pathn := by
    intro q s x r s' hq hx
    unfold snp at hx
    split at hx
    · simp only [Option.some.injEq, Prod.mk.injEq] at hx
      rw [← hx.1]
      refine ⟨?_, by simp only [List.length_take, pathn] at *; omega⟩
      rw [List.prefix_take_iff]
      exact ⟨List.prefix_append _ _, by omega⟩
    · split at hx
      · simp only [Option.some.injEq, Prod.mk.injEq] at hx
        rw [← hx.1]
        exact ⟨List.prefix_refl _, hq⟩
      · simp at hx
  have h1 := snp_ok [] home (by simpa using hh)
  simp only [List.length_nil, List.nil_append] at h1
  simp only [filePath, h1] at h
  split at h
  · cases h2 : snp home home.length uri with
    | none => rw [h2] at h; simp at h
    | some x =>
      obtain ⟨p2, s2⟩ := x
      rw [h2] at h
      have e2 := hs _ _ _ _ _ hh h2
      simp only at h
      split at h
      · cases h3 : snp p2 s2 index with
        | none => rw [h3] at h; simp at h
        | some x =>
          rw [h3] at h
          simp only [Path.ok.injEq] at h
          rw [← h]
          exact e2.1.trans (hs _ _ _ _ _ e2.2 h3).1
      · simp only [Path.ok.injEq] at h
        rw [← h]
        exact e2.1
  · cases h2 : snp home home.length (47 :: index) with
    | none => rw [h2] at h; simp at h
    | some x =>
      rw [h2] at h
      simp only [Path.ok.injEq] at h
      rw [← h]
      exact (hs _ _ _ _ _ hh h2).1

/-- Case: a directory. -/
example : filePath (str "/srv/www") (str "index.html") (str "/a/") = .ok (str "/srv/www/a/index.html") := by decide +kernel

/-- C33 fails for targets of 1024 bytes or more: parent components behind the first 1024 bytes are not seen. For every target whose
first 1024 bytes end with a slash and contain no `../`, whatever follows is served (unless the stack behind the copy contains `../`). -/
theorem c33_long_target_counterexample (l : List Api) (a rest : List UInt8) (ha : a.length = 1023)
    (hd : ¬ Occurs [46, 46, 47] (a ++ [47])) (stack : List UInt8) (hs : ¬ Occurs [46, 46, 47] stack)
    (hn : ∀ x ∈ l, x.key.length ≤ 31) :
    route l (a ++ (47 :: rest)).length (a ++ (47 :: rest)) .get stack = .file := by
  have hna : ∀ x, route l (a ++ (47 :: rest)).length (a ++ (47 :: rest)) .get stack ≠ .api x := by
    intro x e
    obtain ⟨b, hb, he, -⟩ := (c36_iff l _ .get stack).mp ⟨x, e⟩
    have := hn b hb
    rw [he] at this
    simp at this; omega
  have htk : (a ++ (47 :: rest)).take 1024 = a ++ [47] := by
    rw [List.take_append, List.take_of_length_le (by omega), ha]; rfl
  have ho : ¬ hasDotDotSlash ((a ++ [47]) ++ stack) = true := by
    intro hc
    obtain ⟨x, y, e⟩ := (dds_iff _).mp hc
    -- the occurrence lies in one of the two parts, since a slash ends the first
    rcases List.append_eq_append_iff.mp e with ⟨z, h1, h2⟩ | ⟨z, h1, h2⟩
    · -- x = (a ++ [47]) ++ z
      exact hs ⟨z, y, h2⟩
    · -- a ++ [47] = x ++ z
      rcases z with _ | ⟨z1, _ | ⟨z2, _ | ⟨z3, z⟩⟩⟩
      · exact hs ⟨[], y, by simpa using h2.symm⟩
      · have := congrArg List.getLast? h1
        simp only [List.getLast?_append, List.getLast?_singleton, Option.some_or, Option.some.injEq] at this
        simp only [List.cons_append, List.nil_append, List.cons.injEq] at h2
        rw [← this] at h2
        exact absurd h2.1 (by decide)
      · have := congrArg List.getLast? h1
        simp at this
        simp only [List.cons_append, List.nil_append, List.cons.injEq] at h2
        rw [← this] at h2
        exact absurd h2.2.1 (by decide)
      · simp only [List.cons_append, List.nil_append, List.cons.injEq] at h2
        obtain ⟨rfl, rfl, rfl, h2⟩ := h2
        exact hd ⟨x, z, h1⟩
  unfold route at hna ⊢
  rw [if_neg (by omega)] at hna ⊢
  cases hf : apiFind l (a ++ (47 :: rest)) .get with
  | some b => rw [hf] at hna; exact absurd rfl (hna b)
  | none =>
    simp only [ne_eq, not_true_eq_false, if_false]
    rw [if_neg (by omega), htk, if_neg (show ¬ (a ++ (47 :: rest)).length < 1024 by simp; omega), if_neg ho]

/-- `/./././…//../../etc/passwd` is such a target: with root `/srv/www` the file opened is outside the root. -/
example : ∃ a : List UInt8, a.length = 1023 ∧ ¬ Occurs [46, 46, 47] (a ++ [47]) ∧
    filePath (str "/srv/www") (str "index.html") (a ++ (47 :: str "../../etc/passwd")) =
      .ok (str "/srv/www" ++ (a ++ (47 :: str "../../etc/passwd"))) := by
  refine ⟨(List.replicate 1023 47), by simp [-List.reduceReplicate], ?_, ?_⟩
  · rintro ⟨x, y, e⟩
    have : (46 : UInt8) ∈ List.replicate 1023 47 ++ [47] := by rw [e]; simp
    simp only [List.mem_append, List.mem_singleton] at this
    rcases this with h | h
    · exact absurd (List.eq_of_mem_replicate h) (by decide)
    · exact absurd h (by decide)
  · rw [c33_path _ _ _ (List.append_ne_nil_of_right_ne_nil _ (List.cons_ne_nil _ _)) ?_]
    · have hl : (List.replicate 1023 (47 : UInt8) ++ (47 :: str "../../etc/passwd")).getLast? = some 100 := by
        rw [List.getLast?_append]
        have : ((47 : UInt8) :: str "../../etc/passwd").getLast? = some 100 := by decide +kernel
        rw [this]
        rfl
      rw [hl, if_neg (by decide), List.append_nil]
    · have h1 : (str "/srv/www").length = 8 := by decide +kernel
      have h2 : (str "../../etc/passwd").length = 16 := by decide +kernel
      have h3 : (str "index.html").length = 10 := by decide +kernel
      simp only [List.length_append, List.length_cons, List.length_replicate, h1, h2, h3]
      omega

/-- C33 fails for a final parent component: `/..` is passed to the file system, which is asked about the parent of the root. -/
theorem c33_trailing_counterexample :
    [46, 46] ∈ comps (str "/..") ∧ (∀ stack, route apis (str "/..").length (str "/..") .get stack = .file) ∧
      filePath (str "/srv/www") (str "index.html") (str "/..") = .ok (str "/srv/www/..") := by
  refine ⟨by decide +kernel, fun stack => ?_, by decide +kernel⟩
  refine c33_served apis _ (by decide +kernel) stack ?_ (by decide +kernel)
  rw [← dds_iff]
  decide +kernel

/-- Non-trivial case of refusal: `/a/../../etc/passwd`. -/
example : route apis (str "/a/../../etc/passwd").length (str "/a/../../etc/passwd") .get [] = .close :=
  c33_refused_partial apis _ (by decide +kernel) _ _ (by decide +kernel) (by decide +kernel)

/-! ### C35 -/

/-- C35. For every path that contains a dot, the content type announced is the documented one of its last component. -/
theorem c35_type_partial (p f : List UInt8) (hp : 46 ∈ p) (hf : LastComp p f) : ∃ t, mime p = some t ∧ ContentType f t := by
  obtain ⟨a, e, rfl, he⟩ := exists_last_dot p hp
  have hm : mime (a ++ 46 :: e) = some (match EzHash.find EzHash.fnv1a mimeTab (46 :: e) with | some v => v | none => str "text/plain") := by
    unfold mime
    rw [lastDot_split a e he]
    simp only
    cases EzHash.find EzHash.fnv1a mimeTab (46 :: e) <;> rfl
  refine ⟨_, hm, ?_⟩
  by_cases hdot : (46 : UInt8) ∈ f
  · -- the last dot of the path is the last dot of its last component
    obtain ⟨b, e', rfl, he'⟩ := exists_last_dot f hdot
    have hee : e = e' := by
      have : ∃ d, a ++ 46 :: e = d ++ 46 :: e' := by
        rcases hf.2 with h | ⟨d, h⟩
        · exact ⟨b, h⟩
        · exact ⟨d ++ (47 :: b), by rw [h]; simp⟩
      obtain ⟨d, hd⟩ := this
      have h1 := lastDot_split a e he
      rw [hd, lastDot_split d e' he'] at h1
      simpa using h1.symm
    subst hee
    refine .inl ⟨b, e, rfl, he, ?_⟩
    rcases mime_table e with ⟨x, hx, h1, h2⟩ | ⟨h1, h2⟩
    · exact .inl ⟨x, hx, h1, by rw [h2]⟩
    · exact .inr ⟨h1, by rw [h2]; rfl⟩
  · -- the text behind the last dot contains a slash, so it is not in the table
    refine .inr ⟨hdot, ?_⟩
    have hsl : (47 : UInt8) ∈ e := by
      rcases hf.2 with h | ⟨d, h⟩
      · exact absurd (h ▸ List.mem_append_right a (List.mem_cons_self ..)) hdot
      · rcases List.append_eq_append_iff.mp h with ⟨z, h1, h2⟩ | ⟨z, h1, h2⟩
        · rcases z with _ | ⟨z1, z⟩
          · simp only [List.nil_append, List.cons.injEq] at h2
            exact absurd h2.1 (by decide)
          · simp only [List.cons_append, List.cons.injEq] at h2
            rw [h2.2]; simp
        · rcases z with _ | ⟨z1, z⟩
          · simp only [List.nil_append, List.cons.injEq] at h2
            exact absurd h2.1 (by decide)
          · simp only [List.cons_append, List.cons.injEq] at h2
            exact absurd (h2.2 ▸ List.mem_append_right z (List.mem_cons_self ..)) hdot
    rcases mime_table e with ⟨x, hx, h1, h2⟩ | ⟨h1, h2⟩
    · exact absurd (h1 ▸ hsl) (table_noslash x hx)
    · rw [h2]; rfl

/-- C35 fails for a path without any dot: `strrchr` returns NULL and `strlen(NULL)` is called. -/
theorem c35_no_dot_counterexample (p : List UInt8) (hp : 46 ∉ p) : mime p = none := by
  unfold mime
  rw [(lastDot_none p).mpr hp]

/-- Non-trivial cases (`c35_type_partial`): a page, a file without extension below a directory with a dot. -/
example : mime (str "/srv/www/a.b/x.json") = some (str "application/json") ∧ mime (str "/srv/www.d/README") = some (str "text/plain") := by
  decide +kernel

/-! ### C34 -/

/-- C34. For every file, every schedule of short reads, short writes and errors, what reaches the wire is a prefix of the header followed by
the file. -/
theorem c34_prefix (hdr : List (List UInt8)) (file : List UInt8) (fsize : Int) (sys : List Net.SysTx) (rd : List Nat) :
    (respond hdr file fsize sys rd).wire <+: hdr.flatten ++ file := by
  have h0 := Net.c19_chain_order hdr sys
  have hp : (Net.sendChainsAll hdr sys).wire <+: hdr.flatten := ⟨_, h0⟩
  unfold respond
  simp only
  split
  · exact hp.trans (List.prefix_append _ _)
  · exact hp.trans (List.prefix_append _ _)
  · rename_i hd
    split
    · rw [(Net.c19_done_iff_all_sent hdr sys).mp hd]
      have := (ff_spec file fsize {} (sendsAll (Net.sendChainsAll hdr sys).rest) rd [] ⟨by simp, rfl, by simp⟩).1
      simp only [FfOut.pre, List.prefix_append_right_inj]
      simpa using this
    · exact hp.trans (List.prefix_append _ _)

/-- Case: the connection fails in the middle of the header. -/
example : (respond [[1, 2, 3], [4]] [5, 6] 2 [.ok 2, .err] []).wire = [1, 2] := by decide +kernel

/-- C34. A response that ends regularly is complete: header and all bytes of the file, for files below 2 GiB. -/
theorem c34_complete_partial (hdr : List (List UInt8)) (file : List UInt8) (hf : file.length < 2147483648) (sys : List Net.SysTx)
    (rd : List Nat) (h : (respond hdr file (toInt32 file.length) sys rd).fin = .done) :
    (respond hdr file (toInt32 file.length) sys rd).wire = hdr.flatten ++ file := by
  have hi : toInt32 file.length = file.length := by
    have hm : file.length % 4294967296 = file.length := Nat.mod_eq_of_lt (by omega)
    simp only [toInt32, hm, if_pos hf]
  rw [hi] at h ⊢
  unfold respond at h ⊢
  simp only at h ⊢
  split at h
  · simp at h
  · simp at h
  · rename_i hd
    rw [(Net.c19_done_iff_all_sent hdr sys).mp hd]
    split at h
    · rename_i hpay
      rw [if_pos hpay]
      have := ff_spec file file.length {} (sendsAll (Net.sendChainsAll hdr sys).rest) rd [] ⟨by simp, rfl, by simp⟩
      simp only [FfOut.pre] at h ⊢
      have hl := this.2 h
      rw [List.nil_append] at this hl
      rw [this.1.eq_of_length_le (by omega)]
    · rename_i hpay
      rw [if_neg hpay]
      simp only [hasPayload, decide_eq_true_eq] at hpay
      have : file.length = 0 := by omega
      rw [List.length_eq_zero_iff.mp this, List.append_nil]

/-- C34. If the socket accepts everything offered whenever it accepts anything, and the file can be read, the whole file is sent. -/
theorem c34_whole_writes_partial (file : List UInt8) (tx : List Net.Tx) (rd : List Nat) (ht : Whole tx) (hr : ∀ n ∈ rd, 0 < n)
    (hs : file.length ≤ sents tx) (hn : file.length ≤ rd.length) :
    ff file file.length {} tx rd = ⟨file, .done⟩ := by
  have hd := ff_live file {} tx rd [] ⟨by simp, rfl, by simp⟩ (by simp) ht hr (by simpa using hs) (by simpa using hn)
  have := ff_spec file file.length {} tx rd [] ⟨by simp, rfl, by simp⟩
  have hl := this.2 hd
  rw [List.nil_append] at this hl
  have hw := this.1.eq_of_length_le (by omega)
  cases hff : ff file file.length {} tx rd
  rw [hff] at hw hd
  simp only at hw hd
  rw [hw, hd]

/-- C34. As long as no call fails and the file can be read, a response that ends early lacks at most one buffer of 16344 bytes, however the socket cuts
the writes. -/
theorem c34_at_most_one_buffer_partial (file : List UInt8) (tx : List Net.Tx) (rd : List Nat) (ht : .fail ∉ tx) (hr : ∀ n ∈ rd, 0 < n)
    (hn : file.length ≤ rd.length) (h : (ff file file.length {} tx rd).fin = .closed) :
    file.length ≤ (ff file file.length {} tx rd).wire.length + 16344 := by
  have := ff_closed file {} tx rd [] ⟨by simp, rfl, by simp⟩ ⟨by simp, by simp⟩ ht hr (by simpa using hn) h
  simpa using this

/-- Such a response: a file of three bytes of which the socket accepts one at first. -/
example : (ff [97, 98, 99] 3 {} [.sent 1] [9, 9, 9]).fin = .closed ∧ (ff [97, 98, 99] 3 {} [.sent 1] [9, 9, 9]).wire = [97] := by decide +kernel

/-- C34 fails for short writes: for every file smaller than the buffer, a first write that is accepted only in part ends the response, although
header and content length were sent: the loop reads again at the end of the file and takes that for an error. -/
theorem c34_short_write_counterexample (file : List UInt8) (k n m : Nat) (tx : List Net.Tx) (rd : List Nat) (hc : file.length < 16344)
    (hk : k < file.length) (hn : file.length ≤ n) :
    ff file file.length {} (.sent k :: tx) (n :: m :: rd) = ⟨file.take k, .closed⟩ := by
  have e0 : ffCap = 16344 := rfl
  have hne : ¬ file = [] := by rintro rfl; simp at hk
  have h1 : ffStep file file.length {} (.sent k :: tx) (n :: m :: rd) =
      ([], .inr (⟨file.length, file, file.length, 0⟩, .sent k :: tx, m :: rd)) := by
    have e : (file.drop 0).take (min n (ffCap - ffLast {})) = file := by
      rw [List.drop_zero, List.take_of_length_le]
      simp only [ffLast, if_true]
      omega
    unfold ffStep
    rw [if_pos rfl]
    unfold ffRead
    rw [if_neg (show ¬ ((0 : Nat) : Int) ≥ file.length by omega), if_pos (by decide)]
    simp only [e]
    rw [if_neg hne]
    simp [ffLast]
  have h2 : ffStep file file.length ⟨file.length, file, file.length, 0⟩ (.sent k :: tx) (m :: rd) = (file.take k, .inl .closed) := by
    have hd : ¬ file.drop k = [] := by rw [List.drop_eq_nil_iff]; omega
    unfold ffStep
    rw [if_neg hne]
    simp only
    unfold ffRead
    rw [if_neg (by simp only [Nat.zero_add]; omega), if_pos (by simp only [ffLast, if_neg hd]; omega)]
    simp
  rw [ff]
  split
  · rename_i h; rw [h1] at h; simp at h
  · rename_i h
    rw [h1] at h
    simp only [Prod.mk.injEq, Sum.inr.injEq] at h
    obtain ⟨rfl, rfl⟩ := h
    simp only
    rw [ff]
    split
    · rename_i h
      rw [h2] at h
      simp only [Prod.mk.injEq, Sum.inl.injEq] at h
      obtain ⟨rfl, rfl⟩ := h
      rfl
    · rename_i h; rw [h2] at h; simp at h

/-- Case for `c34_whole_writes_partial` and `c34_complete_partial`: the same file with whole writes is sent completely, with one short write it is cut. -/
example : ff [1, 2, 3] 3 {} [.again, .sent 20000] [2, 5] = ⟨[1, 2], .waiting⟩ ∧ ff [1, 2, 3] 3 {} [.again, .sent 20000] [8] = ⟨[1, 2, 3], .done⟩ ∧
    ff [1, 2, 3] 3 {} [.sent 1, .sent 20000] [8, 8] = ⟨[1], .closed⟩ := by
  simp [ff, ffStep, ffRead, ffLast, ffCap, FfOut.pre]

/-- C34 fails for files of 2 GiB to 4 GiB: the size becomes negative, the header announces it and no byte of the file is sent. -/
theorem c34_large_file_counterexample (hdr : List (List UInt8)) (file : List UInt8) (h1 : 2147483648 ≤ file.length)
    (h2 : file.length < 4294967296) (sys : List Net.SysTx) (rd : List Nat) :
    toInt32 file.length < 0 ∧ (respond hdr file (toInt32 file.length) sys rd).wire <+: hdr.flatten := by
  have hm : file.length % 4294967296 = file.length := Nat.mod_eq_of_lt h2
  have hneg : toInt32 file.length < 0 := by
    simp only [toInt32, hm]
    rw [if_neg (by omega)]
    omega
  refine ⟨hneg, ?_⟩
  have hp : (Net.sendChainsAll hdr sys).wire <+: hdr.flatten := ⟨_, Net.c19_chain_order hdr sys⟩
  unfold respond
  simp only
  split
  · exact hp
  · exact hp
  · rw [if_neg (by simp only [hasPayload, decide_eq_true_eq]; omega)]
    exact hp

/-- C34 fails when the file cannot be opened: the response still announces 200 and the size. -/
theorem c34_open_failure_counterexample (size : Nat) : fileCode (.readable size false) = fileCode (.readable size true) ∧
    (fileCode (.readable size false)).1 = 200 := ⟨rfl, rfl⟩

/-! ### C53 -/

/-- C53. A GET request for a target as the parser delivers it is answered or refused without undefined behaviour, if path and target fit the
path buffer and some dot occurs in the path. -/
theorem c53_safe_partial (home index uri : List UInt8) (stat : List UInt8 → Stat) (m : Meth) (payload : Bool) (stack : List UInt8)
    (hu : uri ≠ []) (hl : home.length + uri.length + index.length < 2048)
    (hd : 46 ∈ home ∨ 46 ∈ uri ∨ (uri.getLast? = some 47 ∧ 46 ∈ index)) (hp : m = .post → payload = true) :
    serve home index stat uri.length uri m payload stack ≠ .crash := by
  unfold serve
  cases hr : route apis uri.length uri m stack with
  | close => simp
  | crash =>
    exfalso
    unfold route at hr
    rw [if_neg (by omega)] at hr
    split at hr
    · simp at hr
    · by_cases hm : m = .get
      · simp only [hm, ne_eq, not_true_eq_false, if_false] at hr
        rw [if_neg (by omega)] at hr
        generalize hasDotDotSlash _ = z at hr; cases z <;> simp at hr
      · simp [hm] at hr
  | api a =>
    simp only
    obtain ⟨b, hb, h1, h2⟩ := (c36_iff apis uri m stack).mp ⟨a, hr⟩
    have ha : a.method = m ∧ (a.handler = 1 → a.method = .post) := by
      unfold route at hr
      rw [if_neg (by omega)] at hr
      split at hr
      · rename_i x hx
        simp only [Route.api.injEq] at hr
        subst hr
        have hf : ∀ l : List Api, apiFind l uri m = some x → x ∈ l ∧ x.method = m := by
          intro l
          induction l with
          | nil => simp [apiFind]
          | cons y l ih =>
            simp only [apiFind]
            intro h
            split at h
            · have := ih h; exact ⟨List.mem_cons_of_mem _ this.1, this.2⟩
            · split at h
              · have := ih h; exact ⟨List.mem_cons_of_mem _ this.1, this.2⟩
              · split at h
                · have := ih h; exact ⟨List.mem_cons_of_mem _ this.1, this.2⟩
                · rename_i hm
                  simp only [Option.some.injEq] at h
                  subst h
                  exact ⟨by simp, (not_not.mp hm).symm⟩
        have := hf apis hx
        refine ⟨this.2, fun h1 => ?_⟩
        have hall : ∀ y ∈ apis, y.handler = 1 → y.method = .post := by decide +kernel
        exact hall x this.1 h1
      · by_cases hm : m = .get
        · simp only [hm, ne_eq, not_true_eq_false, if_false] at hr
          rw [if_neg (by omega)] at hr
          generalize hasDotDotSlash _ = z at hr; cases z <;> simp at hr
        · simp [hm] at hr
    split
    · rename_i hc
      rw [hp (ha.1 ▸ ha.2 hc.1)] at hc
      exact absurd hc.2 (by decide)
    · simp
  | file =>
    simp only
    rw [c33_path home index uri hu hl]
    simp only
    have hdot : (46 : UInt8) ∈ home ++ uri ++ (if uri.getLast? = some 47 then index else []) := by
      rcases hd with h | h | ⟨h, h'⟩
      · simp [h]
      · simp [h]
      · rw [if_pos h]; simp [h']
    obtain ⟨a, e, h1, h2⟩ := exists_last_dot _ hdot
    cases hm : mime (home ++ uri ++ (if uri.getLast? = some 47 then index else [])) with
    | none =>
      exfalso
      rw [h1] at hm
      unfold mime at hm
      rw [lastDot_split a e h2] at hm
      simp only at hm
      split at hm <;> simp at hm
    | some t => simp

/-- Non-trivial case: a page below a root without a dot. -/
example : serve (str "/srv/www") (str "index.html") (fun _ => .readable 5 true) 6 (str "/a.css") .get false [] = .file 200 (str "text/css") 5 := by
  decide +kernel

/-- C53 is false: the nine bytes `GET /⏎⏎` make the parser accept a target of length −1, and the router copies `(size_t) -1` bytes. -/
theorem c53_short_request_counterexample :
    (match Http.head 3 {} [] 0 [.data 71 [69, 84, 32, 47, 13, 10, 13, 10]] with
      | .done r buf _ _ => some (r.uri.len, Http.methodTyp (Http.sub buf r.method))
      | _ => none) = some (-1, .get) ∧
    ∀ home index stat uri payload stack, serve home index stat (-1) uri .get payload stack = .crash := by
  refine ⟨by decide +kernel, fun home index stat uri payload stack => ?_⟩
  simp [serve, route]

/-- C53 is false: `POST /echo` without a body dereferences a null pointer. -/
theorem c53_echo_counterexample (home index : List UInt8) (stat : List UInt8 → Stat) (stack : List UInt8) :
    serve home index stat (str "/echo").length (str "/echo") .post false stack = .crash := by
  have h : apiFind apis (str "/echo") .post = some ⟨str "/echo", .post, 1⟩ := by decide +kernel
  unfold serve route
  rw [if_neg (by omega), h]
  simp

/-- Case: a root and an index, the file system answering anything. -/
example : serve (str "/srv/www") (str "index.html") (fun _ => .missing) 5 (str "/echo") .post false [] = .crash :=
  c53_echo_counterexample _ _ _ _

/-- C53 is false: with root and target without a dot (`GET /README`, root `/srv/www`) the extension is a null pointer. -/
theorem c53_no_dot_counterexample (home index uri : List UInt8) (stat : List UInt8 → Stat) (payload : Bool) (stack : List UInt8)
    (hu : uri ≠ []) (hl : home.length + uri.length + index.length < 2048) (hlt : uri.length < 1024)
    (hd : 46 ∉ home ∧ 46 ∉ uri ∧ uri.getLast? ≠ some 47) (hn : ∀ a ∈ apis, a.key ≠ uri) :
    serve home index stat uri.length uri .get payload stack = .crash := by
  unfold serve
  have ho : ¬ Occurs [46, 46, 47] uri := by
    rintro ⟨a, b, e⟩
    exact hd.2.1 (by rw [e]; simp)
  rw [c33_served apis uri hlt stack ho (fun a ha h => hn a ha h.1)]
  simp only
  rw [c33_path home index uri hu hl, if_neg hd.2.2, List.append_nil]
  simp only
  rw [c35_no_dot_counterexample _ (by simp [hd.1, hd.2.1])]

example : serve (str "/srv/www") (str "index.html") (fun _ => .missing) 7 (str "/README") .get false [] = .crash :=
  c53_no_dot_counterexample _ _ (str "/README") _ _ _ (by decide +kernel) (by decide +kernel) (by decide +kernel) (by decide +kernel)
    (by decide +kernel)

/-- C53 is false: a target ending with a slash that together with the root exceeds the path buffer makes the server write behind the
buffer. -/
theorem c53_overflow_counterexample (home index uri : List UInt8) (hh : home.length < 2048) (hu : uri.getLast? = some 47)
    (hl : 2048 < home.length + uri.length) : filePath home index uri = .overflow := by
  change home.length < pathn at hh
  change pathn < home.length + uri.length at hl
  have h1 := snp_ok [] home (by simpa using hh)
  simp only [List.length_nil, List.nil_append] at h1
  have hp : uri.length > 0 := by omega
  have h2 : snp home home.length uri = some ((home ++ uri).take (pathn - 1), home.length + uri.length) := by
    unfold snp; rw [if_pos hh]
  have h3 : snp ((home ++ uri).take (pathn - 1)) (home.length + uri.length) index = none := by
    unfold snp; rw [if_neg (by omega), if_neg (by omega)]
  simp only [filePath, h1, hp, if_true, h2, hu, h3]

/-- Such a target passes the checks of the router. -/
example : ∃ uri : List UInt8, uri.length = 2042 ∧ uri.getLast? = some 47 ∧ route apis uri.length uri .get [] = .file := by
  refine ⟨List.replicate 1023 47 ++ (47 :: List.replicate 1018 47), by simp [-List.reduceReplicate], ?_, ?_⟩
  · rw [List.getLast?_append]
    have : (47 :: List.replicate 1018 47 : List UInt8).getLast? = some 47 := by
      rw [show (47 :: List.replicate 1018 47 : List UInt8) = List.replicate 1019 47 from rfl, List.getLast?_replicate]
      rfl
    rw [this]
    rfl
  · refine c33_long_target_counterexample apis (List.replicate 1023 47) _ (by simp [-List.reduceReplicate]) ?_ [] ?_ (by decide +kernel)
    · rintro ⟨x, y, e⟩
      have : (46 : UInt8) ∈ List.replicate 1023 47 ++ [47] := by rw [e]; simp
      simp only [List.mem_append, List.mem_singleton] at this
      rcases this with h | h
      · exact absurd (List.eq_of_mem_replicate h) (by decide)
      · exact absurd h (by decide)
    · rintro ⟨x, y, e⟩
      simp at e

/-! ### C54 -/

/-- C54. The status line is ended by CRLF exactly for the codes 200, 403, 404 and 500. -/
theorem c54_crlf_partial (code : Nat) : (∃ x, statusLine code = x ++ [13, 10]) ↔ code = 200 ∨ code = 403 ∨ code = 404 ∨ code = 500 := by
  have hbad : ¬ ∃ x, str "HTTP/1.1 400 Bad Request" = x ++ [13, 10] := by
    rintro ⟨x, h⟩
    have := congrArg List.getLast? h
    have h2 : (str "HTTP/1.1 400 Bad Request").getLast? = some 116 := by decide +kernel
    rw [h2] at this
    simp at this
  unfold statusLine
  by_cases h1 : code = 200
  · subst h1; simp only [if_true, true_or, iff_true]; exact ⟨str "HTTP/1.1 200 OK", by decide +kernel⟩
  by_cases h2 : code = 400
  · subst h2; simp only [if_true]; simpa using hbad
  by_cases h3 : code = 403
  · subst h3; simp only [if_true]; simp only [true_or, or_true, iff_true]; exact ⟨str "HTTP/1.1 403 Forbidden", by decide +kernel⟩
  by_cases h4 : code = 404
  · subst h4; simp only [if_true]; simp only [true_or, or_true, iff_true]; exact ⟨str "HTTP/1.1 404 Not Found", by decide +kernel⟩
  by_cases h5 : code = 500
  · subst h5; simp only [if_true]; simp only [or_true, iff_true]; exact ⟨str "HTTP/1.1 500 Internal Server Error", by decide +kernel⟩
  · simp only [h1, h2, h3, h4, h5, if_false, or_self, iff_false]; exact hbad

/-- Case: 404 and 400. -/
example : statusLine 404 = str "HTTP/1.1 404 Not Found\r\n" ∧ statusLine 400 = str "HTTP/1.1 400 Bad Request" := by decide +kernel

/-- C54 is false: a request for a file that does not exist is answered with a status line that runs into the next header line. -/
theorem c54_missing_file_counterexample :
    (fileCode .missing).1 = 400 ∧ statusLine 400 ++ str "Server: s5\r\n" = str "HTTP/1.1 400 Bad RequestServer: s5\r\n" := by
  decide +kernel

/-! ### C55 -/

/-- C55 is false: in secret mode, whatever a web client sends first is read to look for the tunnel header and then thrown away: the request
parser starts with an empty buffer and sees only what arrives later. Here for a request of at least 36 bytes in one piece. -/
theorem c55_request_lost_counterexample (b : UInt8) (bs : List UInt8) (rest : List Rx) (h1 : 36 ≤ (b :: bs).length)
    (hm : (b :: bs).take 4 ≠ [0xa0, 0x01, 0xbe, 0xef]) : transfer [] (.data b bs :: rest) = .web [] rest := by
  change (b :: bs).take 4 ≠ Auth.magic at hm
  have hl : ((b :: bs).take 8192).length = min 8192 (b :: bs).length := List.length_take
  have ht : ((b :: bs).take 8192).take 4 = (b :: bs).take 4 := by rw [List.take_take]; rfl
  rw [transfer, if_pos (by simp)]
  simp only [List.nil_append, List.length_nil, Nat.sub_zero]
  rw [transfer.eq_def]
  simp only
  rw [if_neg (by omega), ht, if_neg hm]

/-- Case: a request of 36 bytes. -/
example : transfer [] [.data 71 (str "ET /index.html HTTP/1.1\r\nHost: a\r\n\r\n")] = .web [] [] :=
  c55_request_lost_counterexample 71 (str "ET /index.html HTTP/1.1\r\nHost: a\r\n\r\n") [] (by decide +kernel) (by decide +kernel)

/-- A request shorter than 36 bytes is not answered: the connection waits. -/
theorem c55_short_request_counterexample (b : UInt8) (bs : List UInt8) (h : (b :: bs).length < 36) :
    transfer [] [.data b bs] = .wait (b :: bs) := by
  have hl : (b :: bs).take 8192 = b :: bs := List.take_of_length_le (by omega)
  rw [transfer, if_pos (by simp)]
  simp only [List.nil_append, List.length_nil, Nat.sub_zero, hl]
  rw [transfer.eq_def]
  simp only
  rw [if_pos h]

/-- Case: `GET / HTTP/1.1` and an empty line. -/
example : transfer [] [.data 71 (str "ET / HTTP/1.1\r\n\r\n")] = .wait (71 :: str "ET / HTTP/1.1\r\n\r\n") :=
  c55_short_request_counterexample 71 _ (by decide +kernel)

/-- C55. Nothing is lost for tunnel clients: for every segmentation that fits the buffer, the bytes handed over followed by those not yet
read are the stream. -/
theorem c55_tunnel_partial (got : List UInt8) (rx rest : List Rx) (m : List UInt8) (h : transfer got rx = .tunnel m rest)
    (hs : got.length + (Http.rxBytes rx).length ≤ 8192) : m ++ Http.rxBytes rest = got ++ Http.rxBytes rx ∧ m.take 4 = [0xa0, 0x01, 0xbe, 0xef] := by
  fun_induction transfer got rx with
  | case1 => simp at h
  | case2 got r hlt ih => exact ih h hs
  | case3 => simp at h
  | case4 got hlt b bs r ih =>
    simp only [Http.rxBytes, List.length_append] at hs
    have ht : (b :: bs).take (8192 - got.length) = b :: bs := List.take_of_length_le (by omega)
    rw [ht] at h ih
    have := ih h (by simp only [List.length_append]; omega)
    simpa [Http.rxBytes, List.append_assoc] using this
  | case5 got rx hlt hm =>
    simp only [Transfer.tunnel.injEq] at h
    rw [← h.1, ← h.2]
    exact ⟨rfl, hm⟩
  | case6 => simp at h

/-- Non-trivial case: a header in two segments followed by early data. -/
example : transfer [] [.data 0xa0 [1, 0xbe], .again, .data 0xef (List.replicate 40 7)] =
    .tunnel ([0xa0, 1, 0xbe, 0xef] ++ List.replicate 40 7) [] := by
  simp [transfer, Auth.magic]

/-! ### C56 -/

/-- C56 is false: on a keep-alive connection every further request allocates a buffer that nothing frees, not even closing the connection; after
`n` further requests `n` buffers are lost. -/
theorem c56_leak_counterexample (k : Keep) (gots : List (List UInt8)) (hk : k.live = 1) :
    keepClose (gots.foldl keepalive k) = gots.length := by
  have : ∀ (gots : List (List UInt8)) (k : Keep), (gots.foldl keepalive k).live = k.live + gots.length := by
    intro gots
    induction gots with
    | nil => simp
    | cons g gots ih =>
      intro k
      rw [List.foldl_cons, ih]
      simp only [keepalive, keepStart, List.length_cons]
      omega
  simp only [keepClose, this, hk]
  omega

/-- Case: three further requests. -/
example : keepClose ([[], [71], []].foldl keepalive ⟨1, []⟩) = 3 := c56_leak_counterexample ⟨1, []⟩ [[], [71], []] rfl

/-- C56 is false: bytes of the next request that arrived with the previous one are lost. -/
theorem c56_pipelined_lost_counterexample (k : Keep) (got : List UInt8) : (keepalive k got).buf = [] := rfl

example : keepClose ([[], [71, 69, 84]].foldl keepalive ⟨1, []⟩) = 2 := by decide

/-- After 1024 further requests the size class of these buffers is used up, and the next allocation takes the list sentinel for a buffer. -/
theorem c56_exhaustion_counterexample (base : Nat → Nat) : ∃ rs s,
    Mem.run (Mem.init base) (List.replicate 1024 (.alloc 4136)) = some (rs, s) ∧ Mem.alloc s 4136 = .corrupt := by
  obtain ⟨rs, s, h1, h2, h3, h4⟩ := Mem.run_drain (n := 4096 + metan) (i := 4) (by decide) (by decide) 1024 (Mem.init base) rfl
    (by simp [Mem.init, Mem.count]) (Or.inr (by simp [Mem.init, Mem.count]))
  refine ⟨rs, s, h1, ?_⟩
  have h0 : s.usable 0 ≠ [] := by rw [h4 0 (by decide)]; simp [Mem.init, Mem.count]
  have : s.usable 4 = [] := by rw [h2]; simp [Mem.init, Mem.count]
  exact ((Mem.c16_outcome_partial s (4096 + metan) (by decide) h3).2.2 4 (by decide) h0).1 this

/-! ### C57 -/

/-- C57. A request body is accepted exactly up to 16344 bytes. -/
theorem c57_exact_partial (n : Int) : bodyAccepted n = true ↔ 0 ≤ n ∧ n ≤ 16344 := by
  have hp : ∀ x : Int, (Mem.pick x).isSome = true ↔ x ≤ 16384 := by
    intro x
    unfold Mem.pick
    repeat' split
    all_goals simp only [Option.isSome_some, Option.isSome_none, Bool.false_eq_true, true_iff, false_iff]
    all_goals omega
  unfold bodyAccepted
  simp only [Bool.and_eq_true, decide_eq_true_eq, Bool.or_eq_true, beq_iff_eq, hp, metan]
  omega

/-- Case: the largest body that is accepted. -/
example : bodyAccepted 16344 = true ∧ bodyAccepted 16345 = false := by decide +kernel

/-- C57 is false: bodies between 16345 bytes and the limit of 10 MiB checked by the code are refused. -/
theorem c57_limit_counterexample (n : Int) (h1 : 16344 < n) (_h2 : n ≤ 10 * 1024 * 1024) : bodyAccepted n = false := by
  rw [← Bool.not_eq_true, c57_exact_partial]
  omega

/-- Case: 20000 bytes. -/
example : bodyAccepted 20000 = false := c57_limit_counterexample 20000 (by decide) (by decide)

end Verif.Web
