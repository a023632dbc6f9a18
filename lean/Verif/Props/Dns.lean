import Verif.Proofs.Dns
/-
Properties C26–C30: the resolver.
-/
namespace Verif.Dns

open DnsSpec EzHash

/-! ### C26 -/

/-- C26. For every host name (labels of 1 to 63 bytes without dots and NULs), with or without a trailing dot, the datagram sent is
a query with exactly one question, of type A and class IN, whose name has exactly the labels of the host name. -/
theorem c26_question (ls : List (List UInt8)) (h : ∀ l ∈ ls, Label l) :
    ∃ m, request (hostText ls) = some m ∧ decodeQuery m = some ⟨0xbeef, 0x100, ls, 1, 1⟩ ∧
      (ls ≠ [] → request (hostText ls ++ [46]) = some m) := by
  refine ⟨reqHeader ++ qname ls ++ reqQuestion, ?_, ?_, ?_⟩
  · simp [request, host2qname_text ls h]
  · simp only [reqHeader, List.cons_append, List.nil_append, decodeQuery]
    rw [decode_qname ls h]
    simp [reqQuestion]
  · intro hne
    simp [request, host2qname_dot ls h hne]

/-- Case: `www.a.com`, also with a dot at the end. -/
example : (request [119, 119, 119, 46, 97, 46, 99, 111, 109]).bind decodeQuery = some ⟨0xbeef, 0x100, [[119, 119, 119], [97], [99, 111, 109]], 1, 1⟩ ∧
    request [119, 119, 119, 46, 97, 46, 99, 111, 109, 46] = request [119, 119, 119, 46, 97, 46, 99, 111, 109] := by decide +kernel

/-- The resolver's name lookup uses the text up to the first NUL, as in `strlen` (src/dns/dns.c:266); it fits the stack array for
every query the SOCKS5 side can produce (at most 255 bytes), whatever the bytes are. -/
theorem c26_no_overflow (q : List UInt8) (h : q.length ≤ 256) : ∃ m, request q = some m := by
  have key : ∀ (q stack out : List UInt8), stack.length + q.length ≤ 256 → ∃ r, host2qname q stack out = some r := by
    intro q
    induction q with
    | nil => intro stack out _; exact ⟨_, rfl⟩
    | cons c r ih =>
      intro stack out hl
      simp only [List.length_cons] at hl
      simp only [host2qname]
      split
      · exact ih [] _ (by simp; omega)
      · rw [if_pos (by omega)]
        exact ih _ _ (by simp; omega)
  obtain ⟨r, hr⟩ := key q [] [] (by simpa using h)
  exact ⟨reqHeader ++ r ++ reqQuestion, by simp [request, hr]⟩

/-- Case: one label of 256 bytes still fits; one of 257 does not. -/
example : (∃ m, request (List.replicate 256 97) = some m) ∧ request (List.replicate 257 97) = none :=
  ⟨c26_no_overflow _ (Nat.le_of_eq List.length_replicate), by decide +kernel⟩

/-- Outside host names the claim fails: `a..b` produces a message that is no well formed query (the empty label ends the name). -/
theorem c26_empty_label_counterexample :
    (request [97, 46, 46, 98]).bind decodeQuery = none ∧
    (request [97, 46, 46, 98]).map (fun m => decodeName (m.drop 12)) =
      some (some ([[97]], [1, 98, 0, 0, 1, 0, 1])) := by
  decide +kernel

/-- Non-trivial case: `www.a.com`. -/
example : ∀ l ∈ [[119, 119, 119], [97], [99, 111, 109]], Label l := by
  intro l hl
  simp only [List.mem_cons, List.not_mem_nil, or_false] at hl
  rcases hl with rfl | rfl | rfl <;> simp [Label]

/-! ### C27 -/

/-- C27 (records with non-empty data). For every response whose header announces a question and an answer, whose question section
has the length of the one asked, and whose records have compressed (or root) owner names and non-empty data: if the first A record
has four data bytes, these are the result; if there is no A record, the resolution fails.
Missing from the full statement: records with empty data (see the counterexample). -/
theorem c27_first_a_partial (t : Cache) (query : Key) (now : Int) (m1 m2 m3 : Bool) (stale hdr qs : List UInt8)
    (hq : query ≠ []) (hh : hdr.length = 12) (hok : headerOk hdr = true) (hqs : qs.length = qnameLen query + 4)
    (rs : List RR) (hrs : ∀ r ∈ rs, r.Ok ∧ r.data ≠ [])
    (hfit : (hdr ++ qs ++ rrBytes rs).length ≤ stale.length) :
    (∀ r, firstA rs = some r → r.data.length = 4 →
      ∃ t', recv t query now m1 m2 m3 stale [] [some (hdr ++ qs ++ rrBytes rs)] = .addr r.data t') ∧
    (firstA rs = none → recv t query now m1 m2 m3 stale [] [some (hdr ++ qs ++ rrBytes rs)] = .fail) := by
  have hne : hdr ++ qs ++ rrBytes rs ≠ [] := by
    intro e
    have := congrArg List.length e
    simp only [List.length_append, List.length_nil] at this
    omega
  have hok' : headerOk (hdr ++ qs ++ rrBytes rs) = true := by
    match hdr, hok with
    | a :: b :: c :: d :: q0 :: q1 :: a0 :: a1 :: _, hok => simpa [headerOk] using hok
  have hrecv : recv t query now m1 m2 m3 stale [] [some (hdr ++ qs ++ rrBytes rs)] =
      respond t query now m1 m2 m3 (hdr ++ qs ++ rrBytes rs) (slackOf stale (hdr ++ qs ++ rrBytes rs)) := by
    rw [recv]
    rw [if_pos (by simp)]
    simp only [hne, if_false, List.nil_append, List.length_nil, Nat.sub_zero]
    rw [List.take_of_length_le hfit, recv]
    rw [if_neg (by simp only [List.length_append]; omega), if_pos hok']
  have hdrop : (hdr ++ qs ++ rrBytes rs).drop (12 + qnameLen query + 4) = rrBytes rs := by
    rw [show 12 + qnameLen query + 4 = (hdr ++ qs).length by simp; omega]
    exact List.drop_left
  have A := analyze_rrs (slackOf stale (hdr ++ qs ++ rrBytes rs)) rs hrs []
  rw [List.append_nil] at A
  obtain ⟨A1, A2⟩ := A
  rw [hrecv]
  constructor
  · intro r hr hl
    have a1 := A1 r hr (by omega)
    rw [show r.data.take 4 = r.data from List.take_of_length_le (by omega)] at a1
    simp only [respond, hdrop, a1]
    cases hc : cacheReq t query now (rdRR r) r.data with
    | none => exact ⟨t, rfl⟩
    | some rec =>
      simp only
      have hl : ¬ query.length = 0 := fun h => hq (List.length_eq_zero_iff.mp h)
      simp only [add]
      cases hf : find fnv1a t query with
      | some w => exact ⟨t, rfl⟩
      | none =>
        cases m1 <;> cases m2 <;> cases m3 <;>
          simp only [hl, if_false, if_true, reduceCtorEq] <;> exact ⟨_, rfl⟩
  · intro hn
    have a2 := A2 hn
    simp only [respond, hdrop, a2, analyze]

/-- The `www.a.com` query used in the cases below. -/
def qWww : Key := [119, 119, 119, 46, 97, 46, 99, 111, 109]

/-- A response header: id 0xbeef, one question, two answers. -/
def hdr2 : List UInt8 := [0xbe, 0xef, 0x81, 0x80, 0, 1, 0, 2, 0, 0, 0, 0]

/-- The question section of the response. -/
def qsWww : List UInt8 := [3, 119, 119, 119, 1, 97, 3, 99, 111, 109, 0, 0, 1, 0, 1]

/-- A CNAME record followed by an A record. -/
def rrsCname : List RR :=
  [⟨.ptr 0xc0 12 (by decide), 5, 1, 300, [1, 98, 0xc0, 16]⟩, ⟨.ptr 0xc0 39 (by decide), 1, 1, 300, [93, 184, 216, 34]⟩]

/-- Non-trivial case for C27: a CNAME before the A record meets all hypotheses, and the result is the A record's data. -/
example : qWww ≠ [] ∧ hdr2.length = 12 ∧ headerOk hdr2 = true ∧ qsWww.length = qnameLen qWww + 4 ∧
    (∀ r ∈ rrsCname, r.Ok ∧ r.data ≠ []) ∧
    (hdr2 ++ qsWww ++ rrBytes rrsCname).length ≤ (List.replicate 1500 (0 : UInt8)).length ∧
    (firstA rrsCname).map (·.data) = some [93, 184, 216, 34] := by
  refine ⟨by decide, by decide, by decide, by decide, ?_, ?_, by decide⟩
  · intro r hr
    simp only [rrsCname, List.mem_cons, List.not_mem_nil, or_false] at hr
    rcases hr with rfl | rfl <;> simp [RR.Ok]
  · rw [List.length_replicate]; decide

/-- The address a run yields, if any. -/
def Res.result : Res → Option (List UInt8)
  | .addr a _ => some a
  | _ => none

/-- C27 counterexample: a record with empty data (here of type NULL) before the A record makes the parser lose its place; the
resolution fails although the response has an A record. -/
theorem c27_empty_data_counterexample :
    let rs : List RR := [⟨.ptr 0xc0 12 (by decide), 10, 1, 300, []⟩, ⟨.ptr 0xc0 12 (by decide), 1, 1, 300, [93, 184, 216, 34]⟩]
    (firstA rs).map (·.data) = some [93, 184, 216, 34] ∧
    (recv cacheInit qWww 0 true true true (List.replicate 100 0) [] [some (hdr2 ++ qsWww ++ rrBytes rs)]).result = none := by
  decide +kernel

/-- Finding: an owner name written without compression (`www` as labels) is not parsed; every byte with one of its two top bits set,
such as a letter, is taken for a compression pointer. The response is valid and has an A record, but the resolution fails. -/
theorem c27_plain_owner_counterexample :
    (recv cacheInit qWww 0 true true true (List.replicate 100 0) []
      [some (hdr2 ++ qsWww ++ ([3, 119, 119, 119, 1, 97, 3, 99, 111, 109, 0] ++ (u16 1 ++ (u16 1 ++ (u32 300 ++ (u16 4 ++
        [93, 184, 216, 34])))))) ]).result = none := by
  decide +kernel

/-- Finding: the section counts are not used, so an A record of the additional section (the address of a name server) is taken for
the answer. Here the answer section holds only a CNAME (one answer announced), the additional section an address. -/
theorem c27_additional_section_counterexample :
    (recv cacheInit qWww 0 true true true (List.replicate 100 0) []
      [some ([0xbe, 0xef, 0x81, 0x80, 0, 1, 0, 1, 0, 0, 0, 1] ++ qsWww ++ rrBytes rrsCname)]).result
      = some [93, 184, 216, 34] := by
  decide +kernel

/-- C27, the counts: a response that announces no question or no answer is refused, whatever follows. -/
theorem c27_counts (t : Cache) (query : Key) (now : Int) (m1 m2 m3 : Bool) (stale : List UInt8) (i0 i1 f0 f1 q0 q1 a0 a1 : UInt8)
    (msg : List UInt8) (rx : List (Option (List UInt8))) (hl : 12 + qnameLen query + 4 ≤ msg.length + 8)
    (hz : (q0 = 0 ∧ q1 = 0) ∨ (a0 = 0 ∧ a1 = 0)) (hfit : msg.length + 8 ≤ stale.length) :
    (recv t query now m1 m2 m3 stale [] (some (i0 :: i1 :: f0 :: f1 :: q0 :: q1 :: a0 :: a1 :: msg) :: rx)) = .fail := by
  rw [recv, if_pos (by simp)]
  simp only [List.nil_append, List.length_nil, Nat.sub_zero, reduceCtorEq, if_false]
  rw [List.take_of_length_le (by simp; omega), recv.eq_def]
  dsimp only
  rw [if_neg (by simp only [List.length_cons]; omega), if_neg]
  simp only [headerOk, Bool.and_eq_true, decide_eq_true_eq, not_and]
  rcases hz with ⟨rfl, rfl⟩ | ⟨rfl, rfl⟩
  · intro h; exact absurd h (by decide)
  · intro _; decide

/-- Non-trivial case for `c27_counts`: a "no such name" response (one question, no answer) to `www.a.com`. -/
example : (recv cacheInit qWww 0 true true true (List.replicate 100 0) []
    [some ([0xbe, 0xef, 0x81, 0x83, 0, 1, 0, 0, 0, 0, 0, 0] ++ qsWww)]).result = none := by decide +kernel

/-! ### C28 -/

/-- C28, short responses: as long as the bytes received cannot hold the header and the question section, there is no result; the resolver
waits (until its timer expires). -/
theorem c28_short (t : Cache) (query : Key) (now : Int) (m1 m2 m3 : Bool) (stale : List UInt8) :
    ∀ (ds : List (List UInt8)) (buf : List UInt8), (∀ d ∈ ds, d ≠ []) →
      buf.length + ds.flatten.length < 12 + qnameLen query + 4 → 12 + qnameLen query + 4 ≤ stale.length →
      recv t query now m1 m2 m3 stale buf (ds.map some) = .wait (buf ++ ds.flatten) [] := by
  intro ds
  induction ds with
  | nil =>
    intro buf _ hl _
    rw [recv.eq_def]
    dsimp only
    rw [if_pos (by simpa using hl)]
    simp
  | cons d ds ih =>
    intro buf hne hl hs
    simp only [List.flatten_cons, List.length_append] at hl
    rw [recv.eq_def]
    dsimp only
    rw [if_pos (by omega)]
    simp only [List.map_cons, hne d (by simp), if_false]
    rw [List.take_of_length_le (by omega), ih _ (fun x hx => hne x (by simp [hx])) (by simp only [List.length_append]; omega) hs]
    simp [List.append_assoc]

/-- Non-trivial case for `c28_short`: two fragments, 20 bytes together, of a response that needs 27. -/
example : ∀ d ∈ [List.replicate 12 (1 : UInt8), List.replicate 8 2], d ≠ [] := by decide

example : [List.replicate 12 (1 : UInt8), List.replicate 8 2].flatten.length < 12 + qnameLen qWww + 4 := by decide +kernel

/-- C28 (position). If the record used announces at least four data bytes, the result is a run of four bytes of the response behind
the question section, and the record is of type A. Missing: identifier, question and owner name are not compared, and shorter records
read past the response (counterexamples below). -/
theorem c28_inside_partial (slack buf : List UInt8) (k : Nat) (rd : Rd) (a : List UInt8)
    (h : analyze slack .name (buf.drop k) = .addr rd a) (h4 : 4 ≤ rd.len) :
    a.length = 4 ∧ rd.type = 1 ∧ ∃ pre post, buf = pre ++ a ++ post ∧ k ≤ pre.length := by
  obtain ⟨h1, h2, h3⟩ := analyze_inside slack .name _ rd a h h4
  refine ⟨h1, h2, ?_⟩
  simp only [St.got, List.nil_append] at h3
  obtain ⟨s, u, e⟩ := h3
  refine ⟨buf.take k ++ s, u, ?_, ?_⟩
  · conv => lhs; rw [← List.take_append_drop k buf, ← e]
    simp [List.append_assoc]
  · simp only [List.length_append, List.length_take]
    rcases Nat.le_total k buf.length with hk | hk
    · rw [Nat.min_eq_left hk]; omega
    · have : buf.drop k = [] := List.drop_eq_nil_of_le hk
      rw [this] at e
      have := congrArg List.length e
      simp at this
      have ha : a = [] := this.2.1
      rw [ha] at h1; cases h1

/-- Case: a response of two records for `www.a.com`, of which the second is used. -/
example : analyze [] .name ((hdr2 ++ qsWww ++ rrBytes rrsCname).drop 27) = .addr ⟨1, 300, 4⟩ [93, 184, 216, 34] := by decide +kernel

/-- C28 counterexample: a response with the wrong identifier (0), another question (15 zero bytes) and an owner name
pointing nowhere is accepted, and its address is the result. -/
theorem c28_unrelated_response_counterexample :
    (recv cacheInit qWww 0 true true true (List.replicate 100 0) []
      [some ([0, 0, 0, 0, 0, 1, 0, 1, 0, 0, 0, 0] ++ List.replicate 15 0 ++
        rrBytes [⟨.ptr 0xff 0xff (by decide), 1, 1, 300, [6, 6, 6, 6]⟩])]).result = some [6, 6, 6, 6] := by
  decide +kernel

/-- The identifier plays no role at all: replacing it changes nothing. -/
theorem c28_identifier_ignored (t : Cache) (query : Key) (now : Int) (m1 m2 m3 : Bool) (slack : List UInt8) (i0 i1 j0 j1 : UInt8)
    (msg : List UInt8) :
    respond t query now m1 m2 m3 (i0 :: i1 :: msg) slack = respond t query now m1 m2 m3 (j0 :: j1 :: msg) slack := by
  simp only [respond]
  have : ∀ a b : UInt8, (a :: b :: msg).drop (12 + qnameLen query + 4) = msg.drop (10 + qnameLen query + 4) := by
    intro a b
    rw [show 12 + qnameLen query + 4 = (10 + qnameLen query + 4) + 1 + 1 by omega]
    rfl
  rw [this i0 i1, this j0 j1]

/-- Case: the same answer with identifier 0 and with the identifier of the request. -/
example : (respond cacheInit qWww 0 true true true (0 :: 0 :: (hdr2 ++ qsWww ++ rrBytes rrsCname).drop 2) []).result = some [93, 184, 216, 34] ∧
    (respond cacheInit qWww 0 true true true (hdr2 ++ qsWww ++ rrBytes rrsCname) []).result = some [93, 184, 216, 34] := by decide +kernel

/-- C28 counterexample: an A record with one data byte at the end of the response; three of the four result bytes are stale buffer
content behind the response (here 7). -/
theorem c28_stale_bytes_counterexample :
    (recv cacheInit qWww 0 true true true (List.replicate 100 7) []
      [some (hdr2 ++ qsWww ++ rrBytes [⟨.ptr 0xc0 12 (by decide), 1, 1, 300, [9]⟩])]).result = some [9, 7, 7, 7] := by
  decide +kernel

/-- C28 counterexample: if such a record ends exactly at the end of the receive buffer of 1500 bytes, the read leaves the
buffer. -/
theorem c28_over_read_counterexample :
    let msg := hdr2 ++ qsWww ++ rrBytes [⟨.ptr 0xc0 12 (by decide), 16, 1, 300, List.replicate 1448 97⟩,
      ⟨.ptr 0xc0 12 (by decide), 1, 1, 300, [9]⟩]
    msg.length = 1500 ∧
    (match recv cacheInit qWww 0 true true true (List.replicate 1500 0) [] [some msg] with | .oob => true | _ => false) = true := by
  decide +kernel

/-! ### C29, C30 -/

/-- The response in `buf` holds an address record the resolver accepts for `query` at time `now`. -/
def Accepts (query : Key) (buf slack : List UInt8) (ttl : Nat) (a : List UInt8) : Prop :=
  ∃ rd, analyze slack .name (buf.drop (12 + qnameLen query + 4)) = .addr rd a ∧ rd.ttl = ttl ∧ ttl > 0 ∧ rd.len > 0

/-- C30. Whatever the history of responses and periodic checks, if the cache answers for a name then the address was accepted from
a response processed for exactly that name. -/
theorem c30_right_name {es : List Ev} {t : Cache} (h : runEv cacheInit es = some t) {q : Key} {a : List UInt8}
    (hf : recFind t q = some a) :
    ∃ pre now buf slack ttl post, es = pre ++ .answer q now true true true buf slack :: post ∧ Accepts q buf slack ttl a := by
  simp only [recFind] at hf
  split at hf
  · rename_i r hr
    cases hf
    rw [find_runEv h] at hr
    obtain ⟨pre, post, he, -, -⟩ := (valueOf_some _ _ _).mp hr
    obtain ⟨ep, e, eq, rfl, -, ho, -⟩ := flatMap_split es pre post _ he
    obtain ⟨now, buf, slack, rd, rfl, ha, ht, hl, -⟩ := toOps_put ho
    exact ⟨ep, now, buf, slack, rd.ttl, eq, rfl, rd, ha, rfl, ht, hl⟩
  · cases hf

/-- Case: an answer for `www.a.com` is found under that name and under no other. -/
example : ((runEv cacheInit [.answer qWww 1000 true true true (hdr2 ++ qsWww ++ rrBytes rrsCname) []]).map
    fun t => (recFind t qWww, recFind t (qWww ++ [46]))) = some (some [93, 184, 216, 34], none) := by decide +kernel

/-- C29 (what the cache does instead). A name is answered with `a` exactly if a response accepted at time `now` with TTL `ttl` found
the name absent and no later check ran *before* the (capped, wrapped) expiry time: the check removes the entries that have not
expired and keeps the expired ones. Missing: the claim itself is false, see the counterexamples. -/
theorem c29_exact_partial {es : List Ev} {t : Cache} (h : runEv cacheInit es = some t) (q : Key) (a : List UInt8) :
    recFind t q = some a ↔
      ∃ pre now buf slack ttl post, es = pre ++ .answer q now true true true buf slack :: post ∧
        Accepts q buf slack ttl a ∧
        (∃ t0, runEv cacheInit pre = some t0 ∧ recFind t0 q = none) ∧
        ∀ s, Ev.chk s ∈ post → now + ttlMsec ttl ≤ s := by
  have sp : ∀ (epost : List Ev) (rec : Rec), (∀ op ∈ epost.flatMap toOps, Spares q rec op) ↔
      ∀ s, Ev.chk s ∈ epost → rec.expire ≤ s := by
    intro epost rec
    constructor
    · intro hs s hm
      have := hs (.purge fun r => decide (r.expire > s)) (List.mem_flatMap.mpr ⟨_, hm, by simp [toOps]⟩)
      simpa [Spares] using this
    · intro hs op hm
      obtain ⟨e, he, ho⟩ := List.mem_flatMap.mp hm
      cases e with
      | chk s =>
        simp only [toOps, List.mem_singleton] at ho
        subst ho
        simpa [Spares] using hs s he
      | answer q' now m1 m2 m3 buf slack =>
        simp only [toOps] at ho
        split at ho
        · split at ho
          · simp only [List.mem_singleton] at ho; subst ho; trivial
          · cases ho
        · cases ho
  have pref : ∀ (p r : List Ev) (t0 t1 : Cache), runEv t0 (p ++ r) = some t1 → ∃ t2, runEv t0 p = some t2 := by
    intro p
    induction p with
    | nil => intro r t0 t1 _; exact ⟨t0, rfl⟩
    | cons e p ih =>
      intro r t0 t1 hh
      simp only [List.cons_append, runEv] at hh ⊢
      split at hh
      · exact ih r _ _ hh
      · cases hh
  have find_rec : ∀ (t0 : Cache), recFind t0 q = none ↔ find fnv1a t0 q = none := by
    intro t0
    simp only [recFind]
    cases find fnv1a t0 q <;> simp
  constructor
  · intro hf
    simp only [recFind] at hf
    split at hf
    · rename_i r hr
      cases hf
      rw [find_runEv h] at hr
      obtain ⟨pre, post, he, hp, hs⟩ := (valueOf_some _ _ _).mp hr
      obtain ⟨ep, e, eq, rfl, h1, ho, h3⟩ := flatMap_split es pre post _ he
      obtain ⟨now, buf, slack, rd, rfl, ha, ht, hl, hx⟩ := toOps_put ho
      obtain ⟨t0, ht0⟩ := pref ep _ _ _ h
      refine ⟨ep, now, buf, slack, rd.ttl, eq, rfl, ⟨rd, ha, rfl, ht, hl⟩, ⟨t0, ht0, ?_⟩, ?_⟩
      · rw [find_rec, find_runEv ht0, h1]; exact hp
      · rw [← h3] at hs
        have := (sp eq r).mp hs
        rw [hx] at this
        exact this
    · cases hf
  · rintro ⟨ep, now, buf, slack, ttl, eq, rfl, ⟨rd, ha, rfl, ht, hl⟩, ⟨t0, ht0, hn⟩, hs⟩
    have ho : toOps (.answer q now true true true buf slack) = [.put q ⟨now + ttlMsec rd.ttl, a⟩ true true true] := by
      simp [toOps, ha, ht, hl]
    have : find fnv1a t q = some ⟨now + ttlMsec rd.ttl, a⟩ := by
      rw [find_runEv h, valueOf_some]
      refine ⟨ep.flatMap toOps, eq.flatMap toOps, ?_, ?_, ?_⟩
      · rw [List.flatMap_append, List.flatMap_cons, ho]; rfl
      · rw [← find_runEv ht0, ← find_rec]; exact hn
      · exact (sp eq _).mpr hs
    simp [recFind, this]

/-- A response with one A record 1.2.3.4 of the given TTL for `www.a.com`. -/
def answerTtl (ttl : Nat) : List UInt8 :=
  hdr2 ++ qsWww ++ rrBytes [⟨.ptr 0xc0 12 (by decide), 1, 1, ttl, [1, 2, 3, 4]⟩]

/-- Non-trivial case for C29/C30: the history is executable and the cache answers. -/
example : ((runEv cacheInit [.answer qWww 1000 true true true (answerTtl 300) []]).bind (recFind · qWww)) = some [1, 2, 3, 4] := by
  decide +kernel

/-- C29 counterexample, use after expiry: an address with a TTL of one second, cached at time 1000 ms, is still returned after checks
at 30, 60 and 90 seconds. -/
theorem c29_stale_counterexample :
    ((runEv cacheInit [.answer qWww 1000 true true true (answerTtl 1) [], .chk 30000, .chk 60000, .chk 90000]).bind
      (recFind · qWww)) = some [1, 2, 3, 4] := by
  decide +kernel

/-- The stale entry never leaves: however many checks run after its expiry and whatever responses come, it is still answered. -/
theorem c29_stale_forever_counterexample {es : List Ev} {t : Cache}
    (h : runEv cacheInit (.answer qWww 1000 true true true (answerTtl 1) [] :: es) = some t)
    (hs : ∀ s, Ev.chk s ∈ es → 2000 ≤ s) : recFind t qWww = some [1, 2, 3, 4] := by
  refine (c29_exact_partial h qWww [1, 2, 3, 4]).mpr
    ⟨[], 1000, answerTtl 1, [], 1, es, rfl, ⟨⟨1, 1, 4⟩, by decide +kernel, rfl, by decide, by decide⟩,
      ⟨cacheInit, rfl, by decide +kernel⟩, ?_⟩
  intro s hm
  exact hs s hm

/-- Case: checks at 30 and 60 seconds and a newer response with another address. -/
example : ((runEv cacheInit [.answer qWww 1000 true true true (answerTtl 1) [], .chk 30000,
    .answer qWww 40000 true true true (hdr2 ++ qsWww ++ rrBytes rrsCname) [], .chk 60000]).bind (recFind · qWww)) = some [1, 2, 3, 4] := by
  decide +kernel

/-- C29 counterexample, early removal: an address with a TTL of one hour is gone after the first check, 30 seconds later. -/
theorem c29_early_removal_counterexample :
    ((runEv cacheInit [.answer qWww 1000 true true true (answerTtl 3600) [], .chk 30000]).bind (recFind · qWww)) = none := by
  decide +kernel

/-- C29, the time stored: for every TTL below 2147484 seconds (24 days) it is the TTL in milliseconds, or three hours if that is less; for
larger TTLs it is at most three hours, and unless it is capped it is the 32-bit wrap-around of the product. Missing: for large TTLs the claim
itself is false (counterexample below). -/
theorem c29_ttl_partial (ttl : Nat) :
    (ttl ≤ 2147483 → ttlMsec ttl = min (1000 * ttl : Int) (3 * 60 * 60 * 1000)) ∧ ttlMsec ttl ≤ 3 * 60 * 60 * 1000 ∧
    (ttlMsec ttl < 3 * 60 * 60 * 1000 → ∃ k : Int, ttlMsec ttl = 1000 * ttl - 4294967296 * k ∧ -2147483648 ≤ ttlMsec ttl) ∧
    (ttlMsec ttl = 3 * 60 * 60 * 1000 → 3 * 60 * 60 * 1000 ≤ (1000 * ttl) % 4294967296 ∧ (1000 * ttl) % 4294967296 < 2147483648) := by
  have hd := Nat.div_add_mod (1000 * ttl) 4294967296
  have hm : (1000 * ttl) % 4294967296 < 4294967296 := Nat.mod_lt _ (by decide)
  unfold ttlMsec ttlMax
  simp only
  refine ⟨fun h => ?_, ?_, fun h => ?_, fun h => ?_⟩
  · have : (1000 * ttl) % 4294967296 = 1000 * ttl := Nat.mod_eq_of_lt (by omega)
    simp only [this]
    split <;> split <;> omega
  · split <;> split <;> omega
  · split at h
    · split at h
      · omega
      · rename_i h1 h2
        rw [if_pos h1, if_neg h2]
        exact ⟨(1000 * ttl / 4294967296 : Nat), by omega, by omega⟩
    · split at h
      · omega
      · rename_i h1 h2
        rw [if_neg h1, if_neg h2]
        exact ⟨(1000 * ttl / 4294967296 : Nat) + 1, by omega, by omega⟩
  · split at h
    · split at h <;> omega
    · split at h <;> omega

/-- Cases: five minutes, a day, and the TTL whose product is exactly the smallest 32-bit integer. -/
example : ttlMsec 300 = 300000 ∧ ttlMsec 86400 = 10800000 ∧ ttlMsec 268435456 = -2147483648 := by decide

/-- C29 counterexample, arithmetic: a TTL of 4294968 seconds (about 50 days) is stored as 704 ms, and 2147484 seconds as a
negative time. -/
theorem c29_wrap_counterexample : ttlMsec 4294968 = 704 ∧ ttlMsec 2147484 = -2147483296 := by
  decide

/-- Finding: a response accepted for the empty name (a SOCKS5 request with an empty host name) ends the program, because the cache
allocates a key of zero bytes (src/common/mem.c:137). -/
theorem c30_empty_name_abort_counterexample :
    (runEv cacheInit [.answer [] 1000 true true true
      (hdr2 ++ [0, 0, 1, 0, 1] ++ rrBytes [⟨.ptr 0xc0 12 (by decide), 1, 1, 300, [1, 2, 3, 4]⟩]) []]).isNone = true := by
  decide +kernel

end Verif.Dns
