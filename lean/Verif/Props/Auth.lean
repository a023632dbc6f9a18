import Verif.Proofs.Auth
/-
Properties C11 to C14 and C52: authorisation of tunnel clients.
-/
namespace Verif.Auth
open Verif Verif.Aho

/-! ### C11: soundness -/

/-- A client stream consisting of one complete header whose key field starts with `key`. -/
def oneHeader (key : List UInt8) : List Rx :=
  [.data 0xa0 ([0x01, 0xbe, 0xef] ++ (key ++ List.replicate 32 0).take 32)]

/-- C11 as stated is false: with the single key `ab`, a first client presenting `a` is refused, and then a second
client presenting `b`, which is no key, is admitted. -/
theorem c11_history_counterexample :
    ∃ (keys : List (List UInt8)) (m : Matcher), load keys = .ok m ∧ presented (oneHeader [98]) = [98] ∧ [98] ∉ keys ∧
      (attempts m [oneHeader [97], oneHeader [98]]).map Verdict.isAdmitted = [false, true] := by
  refine ⟨[[97, 98]], ⟨addAll [[97, 98]], [([98, 97], []), ([97], [])], []⟩, ?_, ?_, ?_, ?_⟩ <;> decide +kernel

/-- C11 is false even for a single client on a fresh server: with the single key `aab`, the text `aaxab` is admitted. -/
theorem c11_fresh_counterexample :
    ∃ (keys : List (List UInt8)) (m : Matcher), load keys = .ok m ∧ presented (oneHeader [97, 97, 120, 97, 98]) = [97, 97, 120, 97, 98] ∧
      [97, 97, 120, 97, 98] ∉ keys ∧ (authChk m (oneHeader [97, 97, 120, 97, 98])).isAdmitted = true := by
  refine ⟨[[97, 97, 98]], ⟨addAll [[97, 97, 98]], [([98, 97, 97], []), ([97, 97], [97]), ([97], [])], []⟩, ?_, ?_, ?_, ?_⟩ <;>
    decide +kernel

/-- C11 is also false because all bytes from 128 up are treated alike: the key `80` (hexadecimal) admits `ff`. -/
theorem c11_high_bytes_counterexample :
    ∃ (keys : List (List UInt8)) (m : Matcher), load keys = .ok m ∧ presented (oneHeader [0xff]) = [0xff] ∧
      [0xff] ∉ keys ∧ (authChk m (oneHeader [0xff])).isAdmitted = true := by
  refine ⟨[[0x80]], ⟨addAll [[0x80]], [([0], [])], []⟩, ?_, ?_, ?_, ?_⟩ <;> decide +kernel

theorem attempts_window {m : Matcher} (hr : Ready m.trie m.fails) (hc : m.cur = [] ∨ m.cur ∈ m.trie.nodes) (ls : List (List Rx))
    (acc : List UInt8) (hacc : m.cur.reverse.Sublist (acc.map idx)) (n : Nat) (v : Verdict)
    (hv : (attempts m ls)[n]? = some v) (ha : v.isAdmitted = true) :
    ∃ p ∈ m.trie.terms, p ∈ m.trie.nodes ∧ p.reverse.Sublist ((window acc ls (attempts m ls) n).map idx) := by
  induction ls generalizing m acc n with
  | nil => simp [attempts] at hv
  | cons l ls ih =>
    have hs := authChk_spec hr hc l (acc.map idx) hacc
    simp only at hs
    cases n with
    | zero =>
      simp only [attempts, List.getElem?_cons_zero, Option.some.injEq] at hv
      subst hv
      obtain ⟨_, p, h1, h2, h3⟩ := hs.2.1 ha
      exact ⟨p, h1, h2, by simpa [attempts, window] using h3⟩
    | succ n =>
      simp only [attempts, List.getElem?_cons_succ] at hv
      obtain ⟨ht, hf⟩ := next_trie m (authChk m l)
      have := ih (m := (authChk m l).next m) (by rw [ht, hf]; exact hr) (by rw [ht]; exact hs.1)
        (if (authChk m l).isAdmitted then [] else acc ++ presented l) (by
          by_cases hadm : (authChk m l).isAdmitted = true
          · simp [hadm, (hs.2.1 hadm).1]
          · simp only [hadm]
            simpa using hs.2.2 (by simpa using hadm)) n hv
      rw [ht] at this
      simpa only [attempts, window] using this

/-- C11, the part that holds for every key file and every history: an admitted client's text, together with the text presented by the
refused clients since the last admission, contains the characters of some configured key in order (bytes from 128 up count as NUL).
In particular nobody is admitted by a server without keys. Missing: equality with a key, and independence of other clients. -/
theorem c11_subsequence_partial (keys : List (List UInt8)) (hsz : keys.flatten.length ≤ 4096) (m : Matcher)
    (h : load keys = .ok m) (ls : List (List Rx)) (n : Nat) (v : Verdict) (hv : (attempts m ls)[n]? = some v)
    (ha : v.isAdmitted = true) :
    ∃ k ∈ keys, k ≠ [] ∧ (k.map idx).Sublist ((window [] ls (attempts m ls) n).map idx) := by
  obtain ⟨h1, h2, h3⟩ := load_ready hsz h
  obtain ⟨p, hp, hpn, hs⟩ := attempts_window h3 (Or.inl h2) ls [] (by simp [h2]) n v hv ha
  rw [h1, mem_terms] at hp
  rw [h1] at hpn
  obtain ⟨k, hk, rfl⟩ := hp
  refine ⟨k, hk, ?_, by simpa using hs⟩
  rintro rfl
  exact (addAll_ok keys).ne (by simpa using hpn)

/-- Case: the history of `c11_history_counterexample`; attempt 1 is admitted, and the key `ab` lies in the texts `a`, `b` presented so far. -/
example : (([97, 98] : List UInt8).map idx).Sublist ((window [] [oneHeader [97], oneHeader [98]]
    (attempts ⟨addAll [[97, 98]], [([98, 97], []), ([97], [])], []⟩ [oneHeader [97], oneHeader [98]]) 1).map idx) := by
  obtain ⟨v, hv, ha⟩ : ∃ v, (attempts ⟨addAll [[97, 98]], [([98, 97], []), ([97], [])], []⟩ [oneHeader [97], oneHeader [98]])[1]? = some v ∧
      v.isAdmitted = true := ⟨_, rfl, by decide +kernel⟩
  obtain ⟨k, hk, -, h⟩ := c11_subsequence_partial [[97, 98]] (by decide) ⟨addAll [[97, 98]], [([98, 97], []), ([97], [])], []⟩ (by decide +kernel) _ 1 v hv ha
  simpa [List.mem_singleton.1 hk] using h

/-- First characters of keys (with bytes from 128 up counting as NUL) occur at no later position of any key. -/
def HeadsFresh (keys : List (List UInt8)) : Prop :=
  ∀ k ∈ keys, ∀ k' ∈ keys, ∀ c ∈ k.tail, ∀ d ∈ k'.head?, idx c ≠ idx d

theorem headsFresh_trie {keys : List (List UInt8)} (h : HeadsFresh keys) : FreshHeads (addAll keys) := by
  intro i q hq hin hi
  rw [mem_nodes] at hin hi
  obtain ⟨_, k, hk, hp⟩ := hin
  obtain ⟨_, k', hk', hp'⟩ := hi
  have hhead : ∃ d ∈ k'.head?, idx d = i := by
    cases k' with
    | nil => simp at hp'
    | cons d k' => simp at hp'; exact ⟨d, by simp, hp'.symm⟩
  have htail : ∃ c ∈ k.tail, idx c = i := by
    cases k with
    | nil => simp at hp
    | cons c k =>
      rw [List.reverse_cons] at hp
      cases hqr : q.reverse with
      | nil => simp at hqr; exact absurd hqr hq
      | cons a r =>
        rw [hqr, List.map_cons, List.cons_append, List.cons_prefix_cons] at hp
        have : i ∈ k.map idx := hp.2.subset (by simp)
        simpa using this
  obtain ⟨d, hd, hd2⟩ := hhead
  obtain ⟨c, hc, hc2⟩ := htail
  exact h k hk k' hk' c hc d hd (hc2.trans hd2.symm)

/-- C11, sharper for key files in which first characters do not recur: on a matcher in its initial state, an admitted text contains
a configured key as a contiguous part. -/
theorem c11_infix_partial (keys : List (List UInt8)) (hsz : keys.flatten.length ≤ 4096) (hf : HeadsFresh keys) (m : Matcher)
    (h : load keys = .ok m) (l : List Rx) (ha : (authChk m l).isAdmitted = true) :
    ∃ k ∈ keys, k ≠ [] ∧ k.map idx <:+: (presented l).map idx := by
  obtain ⟨h1, h2, h3⟩ := load_ready hsz h
  obtain ⟨fs, hc, _, _, har⟩ := compile_roots (headsFresh_trie hf) (addAll_ok keys) (Nat.le_trans (nodes_length keys) hsz)
  have hfails : m.fails = fs := by
    unfold load at h; rw [hc] at h; cases h; rfl
  unfold authChk at ha
  unfold presented
  cases hrx : authRecv [] l with
  | waiting => rw [hrx] at ha; simp [Verdict.isAdmitted] at ha
  | closed => rw [hrx] at ha; simp [Verdict.isAdmitted] at ha
  | have_ buf rest =>
    rw [hrx] at ha
    simp only [authJudge] at ha
    by_cases hm : buf.take 4 = magic
    · simp only [if_pos hm] at ha ⊢
      obtain ⟨v, c, e1, _, _, e4⟩ := find_infix h3 (by rw [hfails]; exact har) m.cur (Or.inl h2) [] (by simp [h2]) (keyText buf)
      rw [e1] at ha
      cases v with
      | noMatch => simp [Verdict.isAdmitted] at ha
      | match_ =>
        obtain ⟨_, p, hp, hpn, hs⟩ := e4 rfl
        rw [h1, mem_terms] at hp
        rw [h1] at hpn
        obtain ⟨k, hk, rfl⟩ := hp
        refine ⟨k, hk, ?_, by simpa using hs⟩
        rintro rfl
        exact (addAll_ok keys).ne (by simpa using hpn)
    · simp [if_neg hm, Verdict.isAdmitted] at ha

/-- Case: three keys with fresh first bytes; the text `xabx` is admitted. -/
example : ∃ m, load [[97, 98], [97, 99], [100]] = .ok m ∧ HeadsFresh [[97, 98], [97, 99], [100]] ∧ (authChk m (oneHeader [120, 97, 98, 120])).isAdmitted = true ∧
    presented (oneHeader [120, 97, 98, 120]) = [120, 97, 98, 120] := by
  refine ⟨_, rfl, by unfold HeadsFresh; decide, by decide +kernel, by decide +kernel⟩

/-! ### C12: completeness -/

/-- C12 as stated is false: with the keys `aab` and `cd`, a client presenting `aa` is refused, after which a client with the configured key
`cd` is refused too. -/
theorem c12_history_counterexample :
    ∃ (keys : List (List UInt8)) (m : Matcher), load keys = .ok m ∧ [99, 100] ∈ keys ∧
      (attempts m [oneHeader [97, 97], [.data 0xa0 (clientHeader [99, 100]).tail]]).map Verdict.isAdmitted = [false, false] := by
  refine ⟨[[97, 97, 98], [99, 100]], ⟨addAll [[97, 97, 98], [99, 100]],
    [([98, 97, 97], []), ([97, 97], [97]), ([100, 99], []), ([99], []), ([97], [])], []⟩, ?_, ?_, ?_⟩ <;> decide +kernel

theorem clientHeader_length (key : List UInt8) : (clientHeader key).length = 36 := by
  simp [clientHeader, magic]

theorem keyText_client (key rest : List UInt8) (hlen : key.length ≤ 16) (h0 : ∀ b ∈ key, b ≠ 0) :
    keyText (clientHeader key ++ rest) = key := by
  have hk : key.take 32 = key := List.take_of_length_le (by omega)
  have hz : ∃ z, ((key ++ List.replicate 33 (0 : UInt8)).take 33).take 16 ++ List.replicate 16 (0 : UInt8) = key ++ (0 : UInt8) :: z := by
    have e1 : ((key ++ List.replicate 33 (0 : UInt8)).take 33).take 16 = key ++ List.replicate (16 - key.length) 0 := by
      rw [List.take_take, List.take_append, List.take_replicate, List.take_of_length_le (by omega)]
      congr 2; omega
    rw [e1, List.append_assoc, List.replicate_append_replicate]
    exact ⟨List.replicate (16 - key.length + 15) 0, by rw [← List.replicate_succ]⟩
  obtain ⟨z, hz⟩ := hz
  unfold keyText clientHeader
  simp only [hk]
  rw [List.append_assoc magic, hz]
  have : ((magic ++ (key ++ 0 :: z)) ++ rest).drop 4 = key ++ 0 :: (z ++ rest) := by
    simp [magic]
  rw [this, List.takeWhile_append_of_pos (by simpa using h0)]
  simp

/-- A stream beginning with the header a client with key `k` sends, on a matcher in its initial node, is admitted. -/
theorem admitted_of_root {keys : List (List UInt8)} {m : Matcher} (ht : m.trie = addAll keys) (hc : m.cur = [])
    (k : List UInt8) (hk : k ∈ keys) (hne : k ≠ []) (hlen : k.length ≤ 16) (h0 : ∀ b ∈ k, b ≠ 0) (l : List Rx)
    (hl : clientHeader k <+: streamOf l) : ∃ rest, authChk m l = .admitted [] rest := by
  have hsl : hdrLen ≤ (streamOf l).length := by
    have := hl.length_le; rw [clientHeader_length] at this; exact this
  rcases authRecv_cases l with ⟨buf, rest, h1, h2, h3⟩ | ⟨_, h2⟩
  · have hbuf : clientHeader k <+: buf := by
      rw [← h3] at hl
      exact List.prefix_of_prefix_length_le hl (List.prefix_append _ _) (by rw [clientHeader_length]; exact h2)
    obtain ⟨x, hx⟩ := hbuf
    have hkt : keyText buf = k := by rw [← hx]; exact keyText_client k x hlen h0
    have hmg : buf.take 4 = magic := by rw [← hx]; simp [clientHeader, magic]
    have hf : find m.trie m.fails m.cur k = .ok (.match_, []) := by
      rw [hc]
      apply find_key _ _ _ hne
      · intro u hu hp
        rw [ht, mem_nodes]
        exact ⟨by simpa using hu, k, hk, by simpa using hp⟩
      · rw [ht, mem_terms]
        exact ⟨k, hk, by simp⟩
    refine ⟨rest, ?_⟩
    unfold authChk
    rw [h1]
    simp only [authJudge, if_pos hmg, hkt, hf]
  · omega

/-- C12, the part that holds: for every key file and every configured key of 1 to 16 bytes without NUL, on every segmentation of
a stream starting with the header the client builds, the client is admitted, provided every earlier attempt was admitted or presented
no text (incomplete header or wrong magic). Missing: earlier refused texts can make the attempt fail. -/
theorem c12_clean_history_partial (keys : List (List UInt8)) (hsz : keys.flatten.length ≤ 4096) (m : Matcher)
    (h : load keys = .ok m) (hist : List (List Rx))
    (hh : ∀ (n : Nat) (v : Verdict) (l : List Rx), (attempts m hist)[n]? = some v → hist[n]? = some l → v.isAdmitted = true ∨ presented l = [])
    (k : List UInt8) (hk : k ∈ keys) (hne : k ≠ []) (hlen : k.length ≤ 16) (h0 : ∀ b ∈ k, b ≠ 0) (l : List Rx)
    (hl : clientHeader k <+: streamOf l) : (authChk (after m hist) l).isAdmitted = true := by
  obtain ⟨h1, h2, h3⟩ := load_ready hsz h
  have key : ∀ (hist : List (List Rx)) (m : Matcher), m.trie = addAll keys → m.cur = [] → Ready m.trie m.fails →
      (∀ (n : Nat) (v : Verdict) (l : List Rx), (attempts m hist)[n]? = some v → hist[n]? = some l → v.isAdmitted = true ∨ presented l = []) →
      (after m hist).trie = addAll keys ∧ (after m hist).cur = [] := by
    intro hist
    induction hist with
    | nil => intro m a b _ _; exact ⟨a, b⟩
    | cons x xs ih =>
      intro m a b c d
      obtain ⟨ht, hf⟩ := next_trie m (authChk m x)
      have hs := authChk_spec c (Or.inl b) x [] (by simp [b])
      simp only at hs
      apply ih
      · rw [ht, a]
      · rcases d 0 (authChk m x) x (by simp [attempts]) (by simp) with hadm | hpr
        · exact (hs.2.1 hadm).1
        · by_cases hadm : (authChk m x).isAdmitted = true
          · exact (hs.2.1 hadm).1
          · have := hs.2.2 (by simpa using hadm)
            rw [hpr] at this
            simpa using this
      · rw [ht, hf]; exact c
      · intro n v l' hv hl'
        exact d (n + 1) v l' (by simpa [attempts] using hv) (by simpa using hl')
  obtain ⟨k1, k2⟩ := key hist m h1 h2 h3 hh
  obtain ⟨rest, hr⟩ := admitted_of_root k1 k2 k hk hne hlen h0 l hl
  rw [hr]; rfl

/-- Case: after two admitted clients a third with the key `ab` is admitted, its header arriving in three pieces. -/
example : (authChk (after ⟨addAll [[97, 98]], [([98, 97], []), ([97], [])], []⟩ [oneHeader [97, 98], oneHeader [97, 98]])
    [.data 0xa0 [1], .again, .data 0xbe ((clientHeader [97, 98]).drop 3)]).isAdmitted = true := by
  refine c12_clean_history_partial [[97, 98]] (by decide) _ (by decide +kernel) _ ?_ [97, 98] (by simp) (by simp) (by decide) (by decide) _ (by decide +kernel)
  intro n v l hv hl
  match n with
  | 0 => left; simp only [attempts, List.getElem?_cons_zero, Option.some.injEq] at hv; subst hv; decide +kernel
  | 1 => left; simp only [attempts, List.getElem?_cons_succ, List.getElem?_cons_zero, Option.some.injEq] at hv; subst hv; decide +kernel
  | n + 2 => simp at hl

/-! ### C13: whole header and magic -/

/-- C13. Admission needs at least 36 received bytes, the first four being the magic, on every segmentation and for every
matcher state. -/
theorem c13_needs_header (m : Matcher) (l : List Rx) (h : (authChk m l).isAdmitted = true) :
    36 ≤ (streamOf l).length ∧ (streamOf l).take 4 = [0xa0, 0x01, 0xbe, 0xef] := by
  unfold authChk at h
  rcases authRecv_cases l with ⟨buf, rest, h1, h2, h3⟩ | ⟨h1, _⟩
  · rw [h1] at h
    simp only [authJudge] at h
    split at h
    · next hm =>
      rw [← h3]
      constructor
      · rw [List.length_append]; simp only [hdrLen] at h2; omega
      · rw [List.take_append_of_le_length (by simp only [hdrLen] at h2; omega)]; exact hm
    · simp [Verdict.isAdmitted] at h
  · rcases h1 with h1 | h1 <;> rw [h1] at h <;> simp [Verdict.isAdmitted] at h

/-- Case: an admitted attempt. -/
example : 36 ≤ (streamOf (oneHeader [97, 98])).length :=
  (c13_needs_header ⟨addAll [[97, 98]], [([98, 97], []), ([97], [])], []⟩ _ (by decide +kernel)).1

/-- C13. A header with a wrong magic is refused and leaves the shared matcher as it was. -/
theorem c13_wrong_magic (m : Matcher) (l : List Rx) (h : (streamOf l).take 4 ≠ [0xa0, 0x01, 0xbe, 0xef]) :
    (authChk m l).isAdmitted = false ∧ (authChk m l).next m = m ∧
    (36 ≤ (streamOf l).length → authChk m l = .refused m.cur) := by
  unfold authChk
  rcases authRecv_cases l with ⟨buf, rest, h1, h2, h3⟩ | ⟨h1, h2⟩
  · have hm : buf.take 4 ≠ magic := by
      rw [← h3, List.take_append_of_le_length (by simp only [hdrLen] at h2; omega)] at h
      exact h
    rw [h1]
    simp [authJudge, hm, Verdict.isAdmitted, Verdict.next]
  · have : ¬ 36 ≤ (streamOf l).length := by simp only [hdrLen] at h2; omega
    rcases h1 with h1 | h1 <;> rw [h1] <;> simp [Verdict.isAdmitted, Verdict.next, this]

/-- Case: the last byte of the magic is wrong. -/
example : authChk ⟨addAll [[97]], [([97], [])], []⟩ [.data 0xa0 ([1, 0xbe, 0xee, 97] ++ List.replicate 31 0)] = .refused [] :=
  (c13_wrong_magic ⟨addAll [[97]], [([97], [])], []⟩ _ (by decide +kernel)).2.2 (by decide +kernel)

/-- C13. An incomplete header is never admitted and leaves the shared matcher as it was. -/
theorem c13_incomplete (m : Matcher) (l : List Rx) (h : (streamOf l).length < 36) :
    (authChk m l).isAdmitted = false ∧ (authChk m l).next m = m := by
  unfold authChk
  rcases authRecv_cases l with ⟨buf, rest, h1, h2, h3⟩ | ⟨h1, h2⟩
  · rw [← h3, List.length_append] at h
    simp only [hdrLen] at h2; omega
  · rcases h1 with h1 | h1 <;> rw [h1] <;> simp [Verdict.isAdmitted, Verdict.next]

/-- Case: magic and key without the rest, then the connection fails. -/
example : (authChk ⟨addAll [[97]], [([97], [])], []⟩ [.data 0xa0 [1, 0xbe, 0xef], .data 97 [], .fail]).isAdmitted = false :=
  (c13_incomplete _ _ (by decide +kernel)).1

/-- C13. If the key field or the secret field contains a NUL, the verdict depends only on the first 36 bytes of the stream, however it is
cut into receive calls. -/
theorem c13_segmentation (m : Matcher) (l l' : List Rx) (h : (streamOf l).take 36 = (streamOf l').take 36)
    (hlen : 36 ≤ (streamOf l).length) (h0 : 0 ∈ ((streamOf l).take 36).drop 4) :
    (authChk m l).isAdmitted = (authChk m l').isAdmitted ∧ (authChk m l).next m = (authChk m l').next m := by
  have hlen' : 36 ≤ (streamOf l').length := by
    have := congrArg List.length h
    simp only [List.length_take] at this; omega
  have kt : ∀ (b : List UInt8), 36 ≤ b.length → 0 ∈ (b.take 36).drop 4 → keyText b = ((b.take 36).drop 4).takeWhile (· ≠ 0) := by
    intro b _ hz
    unfold keyText
    have e : b.drop 4 = (b.take 36).drop 4 ++ b.drop 36 := by
      conv => lhs; rw [← List.take_append_drop 36 b]
      rw [List.drop_append]
      simp only [List.length_take]
      rw [show 4 - min 36 b.length = 0 by omega, List.drop_zero]
    rw [e, List.takeWhile_append]
    split
    · next hw =>
      exfalso
      have hp : (((b.take 36).drop 4).takeWhile (· ≠ 0)) <+: ((b.take 36).drop 4) := List.takeWhile_prefix _
      have he := hp.eq_of_length hw
      have hall := List.all_takeWhile (p := (· ≠ 0)) (l := (b.take 36).drop 4)
      rw [he, List.all_eq_true] at hall
      have := hall 0 hz
      simp at this
    · rfl
  have judge : ∀ l, (streamOf l).length ≥ 36 → ∃ buf rest, authChk m l = authJudge m buf rest ∧ buf.take 36 = (streamOf l).take 36 ∧ 36 ≤ buf.length := by
    intro l hl
    rcases authRecv_cases l with ⟨buf, rest, h1, h2, h3⟩ | ⟨_, h2⟩
    · refine ⟨buf, rest, by unfold authChk; rw [h1], ?_, h2⟩
      rw [← h3, List.take_append_of_le_length (by simp only [hdrLen] at h2; omega)]
    · simp only [hdrLen] at h2; omega
  obtain ⟨b1, r1, e1, t1, l1⟩ := judge l hlen
  obtain ⟨b2, r2, e2, t2, l2⟩ := judge l' hlen'
  have hm : b1.take 4 = b2.take 4 := by
    have : (b1.take 36).take 4 = (b2.take 36).take 4 := by rw [t1, t2, h]
    simpa [List.take_take] using this
  have hk : keyText b1 = keyText b2 := by
    rw [kt b1 l1 (by rw [t1]; exact h0), kt b2 l2 (by rw [t2, ← h]; exact h0), t1, t2, h]
  rw [e1, e2]
  unfold authJudge
  rw [hm, hk]
  split
  · split <;> simp [Verdict.isAdmitted, Verdict.next]
  · simp [Verdict.isAdmitted, Verdict.next]

/-- Case: a header at once and in three pieces. -/
example (m : Matcher) : (authChk m (oneHeader [97, 98])).isAdmitted =
    (authChk m [.data 0xa0 [1], .again, .data 0xbe [0xef, 97, 98], .data 0 (List.replicate 29 0)]).isAdmitted :=
  (c13_segmentation m _ _ (by decide +kernel) (by decide +kernel) (by decide +kernel)).1

/-! ### C14: compilation -/

/-- C14 as stated is false: the keys `baxy` and `axz` make the server dereference NULL while loading the key file. -/
theorem c14_counterexample : load [[98, 97, 120, 121], [97, 120, 122]] = .error .null := by decide +kernel

/-- C14, the part that holds for every key file: loading terminates, never overflows the work stack, and either succeeds with
complete links or dereferences NULL. Missing: the absence of the NULL dereference. -/
theorem c14_terminates_partial (keys : List (List UInt8)) (hsz : keys.flatten.length ≤ 4096) :
    load keys = .error .null ∨ ∃ m, load keys = .ok m ∧ ∀ l, ∀ e, authChk m l ≠ .crash e := by
  rcases compile_spec (addAll_ok keys) (Nat.le_trans (nodes_length keys) hsz) with hc | ⟨fs, hc, hf, ht⟩
  · left; simp [load, hc]
  · right
    refine ⟨⟨addAll keys, fs, []⟩, by simp [load, hc], ?_⟩
    intro l e
    unfold authChk
    split
    · simp
    · simp
    · next buf rest _ =>
      unfold authJudge
      obtain ⟨v, c, h1, _⟩ := find_spec (t := addAll keys) (fs := fs) ⟨addAll_ok keys, hf, ht⟩ [] (Or.inl rfl) (keyText buf)
      split
      · simp only [h1]; cases v <;> simp
      · simp

/-- Case: a file with three keys that is compiled; `c14_counterexample` is one where the first alternative holds. -/
example : (load [[97, 98], [97, 99], [100]]).isOk = true := by decide +kernel

/-- C14. A key file with a single key always loads. -/
theorem c14_single_key_partial (k : List UInt8) (hsz : k.length ≤ 4096) : ∃ m, load [k] = .ok m := by
  have hch : Chain (addAll [k]) := by
    intro p hp q hq hl
    rw [mem_nodes] at hp hq
    obtain ⟨_, k1, h1, hp⟩ := hp
    obtain ⟨_, k2, h2, hq⟩ := hq
    simp only [List.mem_singleton] at h1 h2
    subst h1; subst h2
    have := List.prefix_of_prefix_length_le hp hq (by simp [hl])
    have := this.eq_of_length (by simp [hl])
    simpa using this
  obtain ⟨fs, hc, _⟩ := compile_chain (addAll_ok [k]) (Nat.le_trans (nodes_length [k]) (by simpa [stackMax] using hsz)) hch
  exact ⟨⟨addAll [k], fs, []⟩, by simp only [load, hc]⟩

/-- Case: a key that repeats itself. -/
example : ∃ m, load [[97, 98, 97, 98, 97]] = .ok m := c14_single_key_partial _ (by decide)

/-- C14. A key file in which first characters of keys do not recur at later positions always loads. -/
theorem c14_fresh_heads_partial (keys : List (List UInt8)) (hsz : keys.flatten.length ≤ 4096) (hf : HeadsFresh keys) :
    ∃ m, load keys = .ok m := by
  obtain ⟨fs, hc, _⟩ := compile_roots (headsFresh_trie hf) (addAll_ok keys) (Nat.le_trans (nodes_length keys) hsz)
  exact ⟨⟨addAll keys, fs, []⟩, by simp only [load, hc]⟩

/-- Case: three keys, two with the same first byte. -/
example : ∃ m, load [[97, 98], [97, 99], [100]] = .ok m := c14_fresh_heads_partial _ (by decide) (by unfold HeadsFresh; decide)

/-! ### C52: bytes after the header -/

/-- C52 as stated is false: a client that sends its SOCKS greeting `05 01 00` in the same segment as the header loses the greeting. -/
theorem c52_pipelined_counterexample :
    ∃ (keys : List (List UInt8)) (m : Matcher) (l : List Rx) (c : Path) (rest : List Rx), load keys = .ok m ∧
      streamOf l = clientHeader [97] ++ [5, 1, 0] ∧ authChk m l = .admitted c rest ∧ streamOf rest = [] := by
  refine ⟨[[97]], ⟨addAll [[97]], [([97], [])], []⟩, [.data 0xa0 ((clientHeader [97]).tail ++ [5, 1, 0])], [], [], ?_, ?_, ?_, ?_⟩ <;>
    decide +kernel

/-- C52, the part that holds: what is left for the next phase is a suffix of the bytes after the header. -/
theorem c52_suffix_partial (m : Matcher) (l : List Rx) (c : Path) (rest : List Rx) (h : authChk m l = .admitted c rest) :
    streamOf rest <:+ (streamOf l).drop 36 := by
  unfold authChk at h
  rcases authRecv_cases l with ⟨buf, rest', h1, h2, h3⟩ | ⟨h1, _⟩
  · rw [h1] at h
    have hr : rest' = rest := by
      simp only [authJudge] at h
      split at h
      · split at h <;> simp_all
      · cases h
    subst hr
    rw [← h3, List.drop_append_of_le_length (by simp only [hdrLen] at h2; exact h2)]
    exact List.suffix_append _ _
  · rcases h1 with h1 | h1 <;> rw [h1] at h <;> cases h

/-- Case: the header, and three more bytes in a later receive, which are left for the next phase. -/
example : streamOf [.data 5 [1, 0]] <:+ (streamOf (oneHeader [97, 98] ++ [.data 5 [1, 0]])).drop 36 :=
  c52_suffix_partial ⟨addAll [[97, 98]], [([98, 97], []), ([97], [])], []⟩ _ [] _ (by decide +kernel)

/-- No receive of a list fails. -/
def noFail (l : List Rx) : Prop := Rx.fail ∉ l

theorem authRecv_aligned (buf : List UInt8) (l1 l2 : List Rx) (hf : noFail l1) (hlen : buf.length + (streamOf l1).length = 36) :
    ∃ r, authRecv buf (l1 ++ l2) = .have_ (buf ++ streamOf l1) r ∧ streamOf r = streamOf l2 := by
  induction l1 generalizing buf with
  | nil =>
    refine ⟨l2, ?_, rfl⟩
    rw [authRecv.eq_def, if_pos (by simp [streamOf] at hlen; simp [hdrLen, hlen])]
    simp [streamOf]
  | cons x l1 ih =>
    have hf' : noFail l1 := fun h => hf (List.mem_cons_of_mem _ h)
    by_cases hb : hdrLen ≤ buf.length
    · have h0 : streamOf (x :: l1) = [] := by
        apply List.eq_nil_of_length_eq_zero; simp only [hdrLen] at hb; omega
      have hs : streamOf (x :: l1 ++ l2) = streamOf l2 := by
        have aux : ∀ l1 : List Rx, noFail l1 → streamOf (l1 ++ l2) = streamOf l1 ++ streamOf l2 := by
          intro l1
          induction l1 with
          | nil => intro _; simp [streamOf]
          | cons y l1 ih2 =>
            intro hf
            have := ih2 (fun h => hf (List.mem_cons_of_mem _ h))
            cases y with
            | data b bs => simp [streamOf, this]
            | again => simpa [streamOf] using this
            | fail => exact absurd (by simp) hf
        rw [aux _ hf, h0]; rfl
      refine ⟨x :: l1 ++ l2, ?_, hs⟩
      rw [authRecv.eq_def, if_pos hb, h0, List.append_nil]
    · rw [authRecv.eq_def, if_neg hb]
      cases x with
      | again => simpa [streamOf] using ih buf hf' (by simpa [streamOf] using hlen)
      | fail => exact absurd (by simp) hf
      | data b bs =>
        simp only [List.cons_append]
        have hl : (b :: bs).length ≤ Tunnel.cap - buf.length := by
          simp only [streamOf, List.length_append, List.length_cons, Tunnel.cap] at hlen ⊢; omega
        rw [dif_pos hl]
        obtain ⟨r, h1, h2⟩ := ih (buf ++ b :: bs) hf' (by simp [streamOf] at hlen ⊢; omega)
        exact ⟨r, by rw [h1]; simp [streamOf], h2⟩

/-- C52. If the header ends at a segment boundary, everything after it is left for the next phase. -/
theorem c52_aligned_partial (m : Matcher) (l1 l2 : List Rx) (hf : noFail l1) (hlen : (streamOf l1).length = 36) (c : Path)
    (rest : List Rx) (h : authChk m (l1 ++ l2) = .admitted c rest) : streamOf rest = streamOf l2 := by
  obtain ⟨r, h1, h2⟩ := authRecv_aligned [] l1 l2 hf (by simpa using hlen)
  unfold authChk at h
  rw [h1] at h
  have hr : r = rest := by
    simp only [authJudge] at h
    split at h
    · split at h <;> simp_all
    · cases h
  rw [← hr, h2]

/-- Case: the same history. -/
example : streamOf [.data 5 [1, 0]] = [5, 1, 0] :=
  c52_aligned_partial ⟨addAll [[97, 98]], [([98, 97], []), ([97], [])], []⟩ (oneHeader [97, 98]) [.data 5 [1, 0]] (by simp [noFail, oneHeader]) (by decide +kernel) []
    [.data 5 [1, 0]] (by decide +kernel)

-- Concrete cases meeting the hypotheses above.
example : (load [[97, 98], [97, 99], [100]]).isOk = true := by decide +kernel
example : HeadsFresh [[97, 98], [97, 99], [100]] := by
  unfold HeadsFresh; decide
example : clientHeader [97, 98] <+: streamOf [.data 0xa0 [1], .again, .data 0xbe ((clientHeader [97, 98]).drop 3 ++ [5])] := by
  decide +kernel

/-- C13. An incomplete header followed by the end of the connection is refused; as long as the connection lasts, the server waits for the rest. -/
theorem c13_ended (m : Matcher) (l : List Rx) (hl : Rx.fail ∉ l) (h : (streamOf l).length < 36) (t : List Rx) :
    authChk m (l ++ .fail :: t) = .refused m.cur ∧ authChk m l = .waiting := by
  have key : ∀ (l : List Rx) (buf : List UInt8), Rx.fail ∉ l → buf.length + (streamOf l).length < 36 →
      authRecv buf (l ++ .fail :: t) = .closed ∧ authRecv buf l = .waiting := by
    intro l
    induction l with
    | nil =>
      intro buf _ hb
      simp only [streamOf, List.length_nil, Nat.add_zero] at hb
      rw [List.nil_append, authRecv, authRecv]
      have hn : ¬ hdrLen ≤ buf.length := by simp only [hdrLen]; omega
      rw [if_neg hn, if_neg hn]
      exact ⟨rfl, rfl⟩
    | cons x l ih =>
      intro buf hx hb
      have hx' : Rx.fail ∉ l := fun h => hx (List.mem_cons_of_mem _ h)
      cases x with
      | fail => exact absurd List.mem_cons_self hx
      | again =>
        simp only [streamOf] at hb
        rw [List.cons_append, authRecv, authRecv]
        have hn : ¬ hdrLen ≤ buf.length := by simp only [hdrLen]; omega
        rw [if_neg hn, if_neg hn]
        exact ih buf hx' hb
      | data b bs =>
        simp only [streamOf, List.length_cons, List.length_append] at hb
        rw [List.cons_append, authRecv, authRecv]
        have hn : ¬ hdrLen ≤ buf.length := by simp only [hdrLen]; omega
        rw [if_neg hn, if_neg hn]
        dsimp only
        rw [dif_pos (by rw [show Tunnel.cap = 12288 from rfl]; simp only [List.length_cons]; omega), dif_pos (by rw [show Tunnel.cap = 12288 from rfl]; simp only [List.length_cons]; omega)]
        exact ih _ hx' (by simp only [List.length_append, List.length_cons]; omega)
  unfold authChk
  obtain ⟨h1, h2⟩ := key l [] hl (by simpa using h)
  rw [h1, h2]
  exact ⟨rfl, rfl⟩

/-- Case: the magic alone, in two pieces. -/
example : authChk ⟨addAll [[97]], [([97], [])], []⟩ ([.data 0xa0 [1], .again, .data 0xbe [0xef]] ++ .fail :: []) = .refused [] :=
  (c13_ended ⟨addAll [[97]], [([97], [])], []⟩ _ (by decide) (by decide) []).1

end Verif.Auth
