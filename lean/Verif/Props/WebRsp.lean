import Verif.Model.WebRsp
import Verif.Proofs.Response
import Verif.Props.Web
import Verif.Props.SysTime
/-
Responses as a client reads them.
-/
namespace Verif.Web
open Printf RspSpec DateSpec

/-- A header value that stays on its line and is short. -/
structure Plain (x : List UInt8) : Prop where
  cr : 13 ∉ x
  sp : x.head? ≠ some 32
  len : x.length < 128

theorem plain_of_all {x : List UInt8} (h : (x.all (· ≠ 13) && (x.head? != some 32) && decide (x.length < 128)) = true) : Plain x := by
  simp only [Bool.and_eq_true, List.all_eq_true, decide_eq_true_eq, bne_iff_ne, ne_eq] at h
  exact ⟨fun hm => h.1.1 13 hm rfl, h.1.2, h.2⟩

/-- The bytes of a number of at most ten digits. -/
theorem nat_plain (n : Nat) (h : n < 10 ^ 10) : Plain (nat n) := by
  refine ⟨fun hm => ?_, fun hh => ?_, ?_⟩
  · have := nat_digit n 13 hm; simp at this
  · have := nat_digit n 32 (List.mem_of_head? hh); simp at this
  · have := (nat_pad 9 n h).1; omega

theorem date_plain {t : SysTime.Tm} (h : SysTime.Ranges t) (hy : 0 ≤ t.year + 1900 ∧ t.year + 1900 < 10000) {x : List UInt8}
    (hx : SysTime.gmt t = some x) : Plain x := by
  obtain ⟨x', hx', hr, hl⟩ := SysTime.c75_http_date t h hy
  rw [hx] at hx'
  obtain rfl := Option.some.inj hx'
  unfold readHttp at hr
  split at hr
  · split at hr
    · rename_i w0 w1 w2 d0 d1 m0 m1 m2 y0 y1 y2 y3 h0 h1 i0 i1 s0 s1 _ _ _ _ _ _ _ _ _ _ _ _ _ _ ew ed em ey eh ei es
      have num : ∀ {l : List UInt8} {v : Nat}, number l = some v → ∀ b ∈ l, 48 ≤ b.toNat ∧ b.toNat ≤ 57 := by
        intro l
        induction l with
        | nil => simp
        | cons a r ih =>
          intro v hv
          simp only [number] at hv
          split at hv
          · rename_i ha
            cases hr : number r with
            | none => simp [hr] at hv
            | some u =>
              intro b hb
              rcases List.mem_cons.mp hb with rfl | hb
              · exact ha
              · exact ih hr b hb
          · simp at hv
      have name : ∀ {names : List String} {l : List UInt8} {v : Nat}, nameIdx names l = some v → ∃ n ∈ names, ascii n = l := by
        intro names l v hv
        unfold nameIdx at hv
        rw [List.findIdx?_eq_some_iff_getElem] at hv
        obtain ⟨hlt, he, -⟩ := hv
        exact ⟨_, List.getElem_mem hlt, by simpa using he⟩
      obtain ⟨n1, hn1, e1⟩ := name ew
      obtain ⟨n2, hn2, e2⟩ := name em
      have c1 : ∀ n ∈ days, Plain (ascii n) := by
        intro n hn
        exact plain_of_all ((by decide +kernel : ∀ n ∈ days, ((ascii n).all (· ≠ 13) && ((ascii n).head? != some 32) &&
          decide ((ascii n).length < 128)) = true) n hn)
      have c2 : ∀ n ∈ months, Plain (ascii n) := by
        intro n hn
        exact plain_of_all ((by decide +kernel : ∀ n ∈ months, ((ascii n).all (· ≠ 13) && ((ascii n).head? != some 32) &&
          decide ((ascii n).length < 128)) = true) n hn)
      have p1 := c1 n1 hn1
      have p2 := c2 n2 hn2
      rw [e1] at p1
      rw [e2] at p2
      have q1 := p1.cr; have q2 := p2.cr; have q3 := p1.sp
      have r1 := num ed; have r2 := num ey; have r3 := num eh; have r4 := num ei; have r5 := num es
      have lt13 : ∀ {b : UInt8}, 48 ≤ b.toNat ∧ b.toNat ≤ 57 → (13 : UInt8) ≠ b := by rintro b hb rfl; simp at hb
      simp only [List.mem_cons, List.not_mem_nil, or_false, forall_eq_or_imp, forall_eq, not_or] at r1 r2 r3 r4 r5 q1 q2
      refine ⟨?_, by simpa using q3, by rw [hl]; omega⟩
      simp only [List.mem_cons, List.not_mem_nil, or_false, not_or]
      exact ⟨q1.1, q1.2.1, q1.2.2, by decide, by decide, lt13 r1.1, lt13 r1.2, by decide, q2.1, q2.2.1, q2.2.2, by decide, lt13 r2.1,
        lt13 r2.2.1, lt13 r2.2.2.1, lt13 r2.2.2.2, by decide, lt13 r3.1, lt13 r3.2, by decide, lt13 r4.1, lt13 r4.2, by decide, lt13 r5.1,
        lt13 r5.2, by decide, by decide, by decide, by decide⟩
    · simp at hr
  · simp at hr

/-- The status codes with a complete status line. -/
def Ended (code : Nat) : Prop := code = 200 ∨ code = 403 ∨ code = 404 ∨ code = 500

theorem statusLine_ended {code : Nat} (h : Ended code) :
    ∃ l, statusLine code = l ++ [13, 10] ∧ 13 ∉ l ∧ status l = some code ∧ l.length < 60 := by
  rcases h with rfl | rfl | rfl | rfl
  · exact ⟨str "HTTP/1.1 200 OK", by decide +kernel, by decide +kernel, by decide +kernel, by decide +kernel⟩
  · exact ⟨str "HTTP/1.1 403 Forbidden", by decide +kernel, by decide +kernel, by decide +kernel, by decide +kernel⟩
  · exact ⟨str "HTTP/1.1 404 Not Found", by decide +kernel, by decide +kernel, by decide +kernel, by decide +kernel⟩
  · exact ⟨str "HTTP/1.1 500 Internal Server Error", by decide +kernel, by decide +kernel, by decide +kernel, by decide +kernel⟩

theorem statusLine_bad {code : Nat} (h : ¬ Ended code) : statusLine code = str "HTTP/1.1 400 Bad Request" := by
  simp only [Ended, not_or] at h
  unfold statusLine
  simp only [h.1, h.2.1, h.2.2.1, h.2.2.2, if_false, ite_self]

/-- The header fields behind `Server`. -/
def tailFields (date : List UInt8) (keep : Bool) (n : Nat) (ctype : Option (List UInt8)) : List (List UInt8 × List UInt8) :=
  [(ascii "Date", date), (ascii "Connection", if keep then ascii "keep-alive" else ascii "close"), (ascii "Content-Length", nat n)] ++
    (match ctype with | none => [] | some c => [(ascii "Content-type", c)])

/-- All header fields. -/
def allFields (date : List UInt8) (keep : Bool) (n : Nat) (ctype : Option (List UInt8)) : List (List UInt8 × List UInt8) :=
  (ascii "Server", ascii "s5") :: tailFields date keep n ctype

theorem d_nat (n : Nat) : d (n : Int) = nat n := by simp [d]

theorem texts_eq (code : Nat) (date : List UInt8) (keep : Bool) (n : Nat) (ctype : Option (List UInt8)) :
    (hdrTexts code date keep n (ctype.map typeHdr)).flatten =
      statusLine code ++ (((allFields date keep n ctype).map wire).flatten ++ [13, 10]) := by
  have a1 : str "Server: s5\r\n" = wire (ascii "Server", ascii "s5") := by decide +kernel
  have a2 : str "Date: " = ascii "Date" ++ [58, 32] := by decide +kernel
  have a3 : str "Connection: " = ascii "Connection" ++ [58, 32] := by decide +kernel
  have a4 : str "Content-Length: " = ascii "Content-Length" ++ [58, 32] := by decide +kernel
  have a5 : str "Content-type: " = ascii "Content-type" ++ [58, 32] := by decide +kernel
  have a6 : str "\r\n" = [13, 10] := by decide +kernel
  have a7 : str "keep-alive" = ascii "keep-alive" := rfl
  have a8 : str "close" = ascii "close" := rfl
  cases ctype with
  | none =>
    simp only [hdrTexts, Option.map_none, allFields, tailFields, a1, a2, a3, a4, a6, a7, a8, d_nat, wire, List.append_assoc, List.cons_append,
      List.nil_append, List.map_cons, List.map_nil, List.flatten_cons, List.flatten_nil, List.append_nil]
  | some c =>
    simp only [hdrTexts, Option.map_some, typeHdr, allFields, tailFields, a1, a2, a3, a4, a5, a6, a7, a8, d_nat, wire, List.append_assoc,
      List.cons_append, List.nil_append, List.map_cons, List.map_nil, List.flatten_cons, List.flatten_nil, List.append_nil]

theorem chain_eq (code : Nat) {date : List UInt8} (keep : Bool) {n : Nat} {ctype : Option (List UInt8)} (hd : Plain date) (hn : n < 10 ^ 10)
    (hc : ∀ c ∈ ctype, Plain c) :
    (hdrChain code date keep n (ctype.map typeHdr)).flatten = (hdrTexts code date keep n (ctype.map typeHdr)).flatten := by
  have l0 : (statusLine code).length ≤ 62 := by
    by_cases h : Ended code
    · obtain ⟨l, e, -, -, hl⟩ := statusLine_ended h; rw [e, List.length_append]; simp; omega
    · rw [statusLine_bad h]; decide +kernel
  have l1 : (str "Server: s5\r\n").length = 12 := by decide +kernel
  have l2 : (str "Date: ").length = 6 := by decide +kernel
  have l3 : (str "Connection: ").length = 12 := by decide +kernel
  have l4 : (str "Content-Length: ").length = 16 := by decide +kernel
  have l5 : (str "Content-type: ").length = 14 := by decide +kernel
  have l6 : (str "\r\n").length = 2 := by decide +kernel
  have l7 : (if keep then str "keep-alive" else str "close").length ≤ 10 := by cases keep <;> decide +kernel
  have l8 := hd.len
  have l9 := (nat_plain n hn).len
  unfold hdrChain
  have key : (hdrTexts code date keep n (ctype.map typeHdr)).foldl hdrp [] = [(hdrTexts code date keep n (ctype.map typeHdr)).flatten] := by
    cases ctype with
    | none =>
      refine hdr_fold_nil _ (by simp [hdrTexts]) ?_ ?_
      · simp only [hdrTexts, Option.map_none, List.cons_append, List.nil_append, List.append_nil, d_nat, List.mem_cons, List.not_mem_nil, or_false,
          forall_eq_or_imp, forall_eq, List.length_append]
        omega
      · simp only [hdrTexts, Option.map_none, List.cons_append, List.nil_append, List.append_nil, d_nat, List.flatten_cons, List.flatten_nil,
          List.length_append]
        omega
    | some c =>
      have l10 := (hc c rfl).len
      refine hdr_fold_nil _ (by simp [hdrTexts]) ?_ ?_
      · simp only [hdrTexts, Option.map_some, typeHdr, List.cons_append, List.nil_append, d_nat, List.mem_cons, List.not_mem_nil, or_false,
          forall_eq_or_imp, forall_eq, List.length_append]
        omega
      · simp only [hdrTexts, Option.map_some, typeHdr, List.cons_append, List.nil_append, d_nat, List.flatten_cons, List.flatten_nil,
          List.length_append, List.length_nil]
        omega
  rw [key, List.flatten_singleton]

theorem tail_clean {date : List UInt8} (keep : Bool) {n : Nat} {ctype : Option (List UInt8)} (hd : Plain date) (hn : n < 10 ^ 10)
    (hc : ∀ c ∈ ctype, Plain c) : ∀ f ∈ tailFields date keep n ctype, Clean f := by
  have name : ∀ {x : String} {v : List UInt8}, ((ascii x).all (fun b => b ≠ 13 ∧ b ≠ 58) && (ascii x) != []) = true → Plain v →
      Clean (ascii x, v) := by
    intro x v hx hv
    simp only [Bool.and_eq_true, List.all_eq_true, decide_eq_true_eq, bne_iff_ne, ne_eq] at hx
    exact ⟨hx.2, fun h => (hx.1 13 h).1 rfl, fun h => (hx.1 58 h).2 rfl, hv.cr, hv.sp⟩
  have c1 : Clean (ascii "Date", date) := name (by decide +kernel) hd
  have c2 : Clean (ascii "Connection", if keep then ascii "keep-alive" else ascii "close") := by
    refine name (by decide +kernel) (plain_of_all ?_)
    cases keep <;> decide +kernel
  have c3 : Clean (ascii "Content-Length", nat n) := name (by decide +kernel) (nat_plain n hn)
  cases ctype with
  | none =>
    intro f hf
    simp only [tailFields, List.append_nil, List.mem_cons, List.not_mem_nil, or_false] at hf
    rcases hf with rfl | rfl | rfl <;> assumption
  | some c =>
    have c4 : Clean (ascii "Content-type", c) := name (by decide +kernel) (hc c rfl)
    intro f hf
    simp only [tailFields, List.cons_append, List.nil_append, List.mem_cons, List.not_mem_nil, or_false] at hf
    rcases hf with rfl | rfl | rfl | rfl <;> assumption

theorem server_clean : Clean (ascii "Server", ascii "s5") := by
  refine ⟨by decide +kernel, by decide +kernel, by decide +kernel, by decide +kernel, by decide +kernel⟩

theorem length_field (date : List UInt8) (keep : Bool) (n : Nat) (ctype : Option (List UInt8)) :
    bodyLength (tailFields date keep n ctype) = some n ∧ bodyLength (allFields date keep n ctype) = some n := by
  have e1 : ¬ ascii "Server" = ascii "Content-Length" := by decide +kernel
  have e2 : ¬ ascii "Date" = ascii "Content-Length" := by decide +kernel
  have e3 : ¬ ascii "Connection" = ascii "Content-Length" := by decide +kernel
  have e4 : ¬ ascii "Content-type" = ascii "Content-Length" := by decide +kernel
  constructor <;>
  · cases ctype <;>
    simp [bodyLength, allFields, tailFields, e1, e2, e3, e4, nat_ne_nil, nat_number]

/-- What a client reads from the head and a body of the announced length: for codes with a complete status line. -/
theorem read_ended {code : Nat} (h : Ended code) {date : List UInt8} (keep : Bool) {ctype : Option (List UInt8)} (body next : List UInt8)
    (hd : Plain date) (hn : body.length < 10 ^ 10) (hc : ∀ c ∈ ctype, Plain c) :
    RspSpec.read ((hdrChain code date keep body.length (ctype.map typeHdr)).flatten ++ (body ++ next)) =
      some (⟨code, allFields date keep body.length ctype, body⟩, next) := by
  obtain ⟨l, e, hcr, hs, -⟩ := statusLine_ended h
  rw [chain_eq code keep hd hn hc, texts_eq, e]
  have := line_append hcr (((allFields date keep body.length ctype).map wire).flatten ++ 13 :: 10 :: (body ++ next))
  unfold RspSpec.read
  rw [show l ++ [13, 10] ++ (((allFields date keep body.length ctype).map wire).flatten ++ [13, 10]) ++ (body ++ next) =
    l ++ 13 :: 10 :: (((allFields date keep body.length ctype).map wire).flatten ++ 13 :: 10 :: (body ++ next)) by simp, this]
  simp only [hs]
  rw [fields_wire _ (fun f hf => ?_)]
  · simp only [(length_field date keep body.length ctype).2, List.length_append, Nat.le_add_right, if_true, List.take_left', List.drop_left']
  · rcases List.mem_cons.mp hf with rfl | hf
    · exact server_clean
    · exact tail_clean keep hd hn hc f hf

/-- The same for all other codes: the client reads status 400 and misses the `Server` field. -/
theorem read_bad {code : Nat} (h : ¬ Ended code) {date : List UInt8} (keep : Bool) {ctype : Option (List UInt8)} (body next : List UInt8)
    (hd : Plain date) (hn : body.length < 10 ^ 10) (hc : ∀ c ∈ ctype, Plain c) :
    RspSpec.read ((hdrChain code date keep body.length (ctype.map typeHdr)).flatten ++ (body ++ next)) =
      some (⟨400, tailFields date keep body.length ctype, body⟩, next) := by
  have e : statusLine code ++ wire (ascii "Server", ascii "s5") = str "HTTP/1.1 400 Bad RequestServer: s5" ++ [13, 10] := by
    rw [statusLine_bad h]; decide +kernel
  have hcr : 13 ∉ str "HTTP/1.1 400 Bad RequestServer: s5" := by decide +kernel
  have hs : status (str "HTTP/1.1 400 Bad RequestServer: s5") = some 400 := by decide +kernel
  rw [chain_eq code keep hd hn hc, texts_eq]
  have := line_append hcr (((tailFields date keep body.length ctype).map wire).flatten ++ 13 :: 10 :: (body ++ next))
  unfold RspSpec.read
  rw [show statusLine code ++ (((allFields date keep body.length ctype).map wire).flatten ++ [13, 10]) ++ (body ++ next) =
    str "HTTP/1.1 400 Bad RequestServer: s5" ++ 13 :: 10 :: (((tailFields date keep body.length ctype).map wire).flatten ++
      13 :: 10 :: (body ++ next)) by
      rw [allFields, List.map_cons, List.flatten_cons]
      simp only [List.append_assoc]
      rw [← List.append_assoc (statusLine code), e]
      simp, this]
  simp only [hs]
  rw [fields_wire _ (tail_clean keep hd hn hc)]
  simp only [(length_field date keep body.length ctype).1, List.length_append, Nat.le_add_right, if_true, List.take_left', List.drop_left']

theorem lastComp_exists (p : List UInt8) : ∃ f, WebSpec.LastComp p f := by
  induction p with
  | nil => exact ⟨[], by simp, Or.inl rfl⟩
  | cons b t ih =>
    obtain ⟨f, hf, h⟩ := ih
    rcases h with rfl | ⟨e, rfl⟩
    · by_cases hb : b = 47
      · subst hb; exact ⟨t, hf, Or.inr ⟨[], rfl⟩⟩
      · exact ⟨b :: t, by simp only [List.mem_cons, not_or]; exact ⟨fun h => hb h.symm, hf⟩, Or.inl rfl⟩
    · exact ⟨f, hf, Or.inr ⟨b :: e, rfl⟩⟩

theorem lastDot_mem {p x : List UInt8} (h : lastDot p = some x) : 46 ∈ p := by
  induction p generalizing x with
  | nil => simp [lastDot] at h
  | cons b t ih =>
    simp only [lastDot] at h
    cases ht : lastDot t with
    | some s => exact List.mem_cons_of_mem _ (ih ht)
    | none =>
      simp only [ht] at h
      split at h
      · rename_i hb; rw [hb]; simp
      · simp at h

/-- Every content type the server chooses is a plain header value. -/
theorem mime_plain {p t : List UInt8} (h : mime p = some t) : Plain t := by
  have hp : 46 ∈ p := by
    unfold mime at h
    cases hl : lastDot p with
    | none => simp [hl] at h
    | some x => exact lastDot_mem hl
  obtain ⟨f, hf⟩ := lastComp_exists p
  obtain ⟨t', ht', hc⟩ := c35_type_partial p f hp hf
  rw [h] at ht'
  obtain rfl := Option.some.inj ht'
  have htab : ∀ x ∈ WebSpec.table, Plain (WebSpec.ascii x.2) := fun x hx =>
    plain_of_all ((by decide +kernel : ∀ x ∈ WebSpec.table, ((WebSpec.ascii x.2).all (· ≠ 13) && ((WebSpec.ascii x.2).head? != some 32) &&
      decide ((WebSpec.ascii x.2).length < 128)) = true) x hx)
  have htxt : Plain (WebSpec.ascii "text/plain") := plain_of_all (by decide +kernel)
  rcases hc with ⟨_, _, _, _, ⟨x, hx, _, rfl⟩ | ⟨_, rfl⟩⟩ | ⟨_, rfl⟩
  · exact htab x hx
  · exact htxt
  · exact htxt

theorem small_toInt32 {n : Nat} (h : n < 2147483648) : toInt32 n = n := by
  have hm : n % 4294967296 = n := Nat.mod_eq_of_lt (by omega)
  simp only [toInt32, hm, if_pos h]

/-! ### C73 -/

/-- The header fields of a response, as the client should see them. -/
def Heads (fs : List (List UInt8 × List UInt8)) (date : List UInt8) (keep : Bool) (n : Nat) (ctype : Option (List UInt8)) : Prop :=
  ∃ len, number len = some n ∧
    fs = [(ascii "Server", ascii "s5"), (ascii "Date", date), (ascii "Connection", ascii (if keep then "keep-alive" else "close")),
      (ascii "Content-Length", len)] ++ (ctype.map fun c => (ascii "Content-type", c)).toList

theorem heads_all (date : List UInt8) (keep : Bool) (n : Nat) (ctype : Option (List UInt8)) :
    Heads (allFields date keep n ctype) date keep n ctype := by
  refine ⟨nat n, nat_number n, ?_⟩
  cases keep <;> cases ctype <;> rfl

/-- C73. When a file of less than 2 GiB has been sent, a client that reads the connection by the rules of HTTP gets a response with status
200, the right header fields and exactly the bytes of the file as body, and finds the next response right behind it; for every sequence of
partial writes, every file and every content type. -/
theorem c73_file_partial (t : SysTime.Tm) (h : SysTime.Ranges t) (hy : 0 ≤ t.year + 1900 ∧ t.year + 1900 < 10000) (date : List UInt8)
    (hd : SysTime.gmt t = some date) (keep : Bool) (p ctype : List UInt8) (hc : mime p = some ctype) (file : List UInt8)
    (hf : file.length < 2147483648) (sys : List Net.SysTx) (rd : List Nat)
    (hdone : (fileResponse (.readable file.length true) date keep ctype file sys rd).fin = .done) (next : List UInt8) :
    ∃ fs, RspSpec.read ((fileResponse (.readable file.length true) date keep ctype file sys rd).wire ++ next) = some (⟨200, fs, file⟩, next) ∧
      Heads fs date keep file.length (some ctype) := by
  unfold fileResponse at hdone ⊢
  simp only [fileCode] at hdone ⊢
  rw [c34_complete_partial _ file hf sys rd hdone, small_toInt32 hf, List.append_assoc]
  have := read_ended (code := 200) (Or.inl rfl) keep (ctype := some ctype) file next (date_plain h hy hd) (by omega)
    (by intro c e; obtain rfl := Option.mem_some.mp e; exact mime_plain hc)
  exact ⟨_, this, heads_all date keep file.length (some ctype)⟩

/-- C73. Whatever happens while a file is sent, a client never takes a part of it for the whole: if it reads a complete response, the body is
the whole file. -/
theorem c73_never_truncated_partial (t : SysTime.Tm) (h : SysTime.Ranges t) (hy : 0 ≤ t.year + 1900 ∧ t.year + 1900 < 10000) (date : List UInt8)
    (hd : SysTime.gmt t = some date) (keep : Bool) (p ctype : List UInt8) (hc : mime p = some ctype) (file : List UInt8)
    (hf : file.length < 2147483648) (openOk : Bool) (sys : List Net.SysTx) (rd : List Nat) (m : Msg) (rest : List UInt8)
    (hr : RspSpec.read (fileResponse (.readable file.length openOk) date keep ctype file sys rd).wire = some (m, rest)) :
    m.code = 200 ∧ m.body = file ∧ rest = [] := by
  unfold fileResponse at hr
  simp only [fileCode] at hr
  obtain ⟨y, hy'⟩ := c34_prefix (hdrChain 200 date keep (toInt32 file.length) (some (typeHdr ctype))) file (toInt32 file.length) sys rd
  have h1 := read_more hr y
  rw [hy', small_toInt32 hf] at h1
  have h2 := read_ended (code := 200) (Or.inl rfl) keep (ctype := some ctype) file [] (date_plain h hy hd) (by omega)
    (by intro c e; obtain rfl := Option.mem_some.mp e; exact mime_plain hc)
  rw [List.append_nil] at h2
  have h3 := h1.symm.trans h2
  simp only [Option.some.injEq, Prod.mk.injEq, List.append_eq_nil_iff] at h3
  rw [h3.1]
  exact ⟨rfl, rfl, h3.2.1⟩

/-- C73. The same for the responses of API handlers: a response that has been sent is read as the given status and exactly the payload. -/
theorem c73_api (t : SysTime.Tm) (h : SysTime.Ranges t) (hy : 0 ≤ t.year + 1900 ∧ t.year + 1900 < 10000) (date : List UInt8)
    (hd : SysTime.gmt t = some date) (keep : Bool) (payload : List UInt8) (hp : payload.length < 2147483648) (sys : List Net.SysTx)
    (hdone : (apiResponse 200 date keep payload sys).fin = .done) (next : List UInt8) :
    ∃ fs, RspSpec.read ((apiResponse 200 date keep payload sys).wire ++ next) = some (⟨200, fs, payload⟩, next) ∧
      Heads fs date keep payload.length none := by
  have hw : (apiResponse 200 date keep payload sys).wire = (hdrChain 200 date keep payload.length none).flatten ++ payload := by
    unfold apiResponse at hdone ⊢
    simp only at hdone ⊢
    split at hdone
    · simp at hdone
    · simp at hdone
    · rename_i hd1
      have e1 := (Net.c19_done_iff_all_sent (hdrChain 200 date keep payload.length none) sys).mp hd1
      by_cases he : payload = []
      · rw [if_pos he, e1, he, List.append_nil]
      · rw [if_neg he] at hdone ⊢
        split at hdone
        · simp at hdone
        · simp at hdone
        · rename_i hd2
          have e2 := (Net.c19_done_iff_all_sent [payload] (Net.sendChainsAll (hdrChain 200 date keep payload.length none) sys).rest).mp hd2
          rw [List.flatten_singleton] at e2
          rw [e1, e2]
  rw [hw, List.append_assoc]
  have := read_ended (code := 200) (Or.inl rfl) keep (ctype := none) payload next (date_plain h hy hd) (by omega) (by simp)
  exact ⟨_, this, heads_all date keep payload.length none⟩

/-- C73. The echo service: handler 0 answers with the date, handler 1 with the body of the request. -/
theorem c73_echo (t : SysTime.Tm) (h : SysTime.Ranges t) (hy : 0 ≤ t.year + 1900 ∧ t.year + 1900 < 10000) (date : List UInt8)
    (hd : SysTime.gmt t = some date) (keep : Bool) (body : List UInt8) (hp : body.length < 2147483648) (sys : List Net.SysTx) (next : List UInt8) :
    ((apiResponse 200 date keep (echoPayload 0 date body) sys).fin = .done →
      ∃ fs, RspSpec.read ((apiResponse 200 date keep (echoPayload 0 date body) sys).wire ++ next) = some (⟨200, fs, date⟩, next)) ∧
    ((apiResponse 200 date keep (echoPayload 1 date body) sys).fin = .done →
      ∃ fs, RspSpec.read ((apiResponse 200 date keep (echoPayload 1 date body) sys).wire ++ next) = some (⟨200, fs, body⟩, next)) := by
  have hl : date.length < 2147483648 := by have := (date_plain h hy hd).len; omega
  refine ⟨fun hdone => ?_, fun hdone => ?_⟩
  · have e : echoPayload 0 date body = date := rfl
    rw [e] at hdone ⊢
    obtain ⟨fs, h1, -⟩ := c73_api t h hy date hd keep date hl sys hdone next
    exact ⟨fs, h1⟩
  · have e : echoPayload 1 date body = body := rfl
    rw [e] at hdone ⊢
    obtain ⟨fs, h1, -⟩ := c73_api t h hy date hd keep body hp sys hdone next
    exact ⟨fs, h1⟩

theorem hdrPut_room (text : List UInt8) (ht : text.length < 4096) (l : List (List UInt8)) (hl : ∀ b ∈ l, b.length < 4096) :
    ∀ b ∈ hdrPut text l, b.length < 4096 := by
  induction l with
  | nil => intro b hb; simp only [hdrPut, List.mem_singleton] at hb; rw [hb]; exact ht
  | cons x l ih =>
    have hx := hl x (by simp)
    intro b hb
    unfold hdrPut at hb
    split at hb
    · rcases List.mem_cons.mp hb with rfl | hb
      · simp only [List.length_append]; omega
      · exact hl b (by simp [hb])
    · rcases List.mem_cons.mp hb with rfl | hb
      · exact hx
      · exact ih (fun b hb => hl b (by simp [hb])) b hb

/-- C73. Header texts of any length stay within the buffers of 4096 bytes they are collected in. -/
theorem c73_buffers (texts : List (List UInt8)) : ∀ b ∈ texts.foldl hdrp [], b.length < 4096 := by
  have key : ∀ (texts l : List (List UInt8)), (∀ b ∈ l, b.length < 4096) → ∀ b ∈ texts.foldl hdrp l, b.length < 4096 := by
    intro texts
    induction texts with
    | nil => intro l hl; exact hl
    | cons x texts ih =>
      intro l hl
      exact ih _ (hdrPut_room _ (by simp [sn]) l hl)
  exact key texts [] (by simp)

/-- Five texts of which four fit into a buffer. -/
example : ((List.replicate 5 (List.replicate 1000 97)).foldl hdrp []).map List.length = [4000, 1000] := by decide +kernel

/-- Case for `c73_file_partial` and `c73_never_truncated_partial`: a file of three bytes sent in pieces, with a full socket in between. -/
example : (fileResponse (.readable 3 true) (ascii "Sun, 15 Nov 2026 04:05:06 GMT") true (ascii "text/plain") [97, 98, 99]
      [.ok 10, .eagain, .ok 500, .ok 16344, .ok 16344, .ok 16344] [2, 5, 5]).fin = .done := by
  have h1 : (Net.sendChainsAll (hdrChain 200 (ascii "Sun, 15 Nov 2026 04:05:06 GMT") true 3 (some (typeHdr (ascii "text/plain"))))
      [.ok 10, .eagain, .ok 500, .ok 16344, .ok 16344, .ok 16344]).rc = .done := by decide +kernel
  have h2 : (Net.sendChainsAll (hdrChain 200 (ascii "Sun, 15 Nov 2026 04:05:06 GMT") true 3 (some (typeHdr (ascii "text/plain"))))
      [.ok 10, .eagain, .ok 500, .ok 16344, .ok 16344, .ok 16344]).rest = [.ok 16344, .ok 16344, .ok 16344] := by decide +kernel
  have h3 : toInt32 3 = 3 := rfl
  have h4 := c34_whole_writes_partial [97, 98, 99] [.sent 16344, .sent 16344, .sent 16344] [2, 5, 5] (by simp [Whole, ffCap]) (by decide)
    (by decide) (by decide)
  simp only [List.length_cons, List.length_nil, Nat.zero_add, Nat.reduceAdd] at h4
  unfold fileResponse respond
  simp only [fileCode, h3, h1, h2, hasPayload, sendsAll, FfOut.pre]
  rw [if_pos (by decide)]
  exact congrArg FfOut.fin h4

/-- Case for `c73_api` and `c73_echo`. -/
example : (apiResponse 200 (ascii "Sun, 15 Nov 2026 04:05:06 GMT") false [97, 98, 99] [.ok 10, .eagain, .ok 500, .ok 2, .ok 1]).fin = .done := by
  decide +kernel

example : mime (ascii "/srv/a.txt") = some (ascii "text/plain") := by decide +kernel

/-- C73 is false for files of 2 GiB and more: the head announces a negative length, which no client can read, and the file is not sent. -/
theorem c73_large_counterexample (keep : Bool) (date ctype file : List UInt8) (h1 : 2147483648 ≤ file.length) (h2 : file.length < 4294967296)
    (sys : List Net.SysTx) (rd : List Nat) :
    (∃ k, (fileCode (.readable file.length true)).2 = -((k : Nat) : Int) ∧ 0 < k ∧
      (hdrTexts 200 date keep (fileCode (.readable file.length true)).2 (some (typeHdr ctype)))[4]? =
        some (ascii "Content-Length: -" ++ (nat k ++ ascii "\r\n"))) ∧
    (fileResponse (.readable file.length true) date keep ctype file sys rd).wire <+:
      (hdrChain 200 date keep (toInt32 file.length) (some (typeHdr ctype))).flatten := by
  have hn := c34_large_file_counterexample (hdrChain 200 date keep (toInt32 file.length) (some (typeHdr ctype))) file h1 h2 sys rd
  refine ⟨⟨(toInt32 file.length).natAbs, ?_, ?_, ?_⟩, hn.2⟩
  · simp only [fileCode]; omega
  · have := hn.1; omega
  · have e : str "Content-Length: " = ascii "Content-Length: " := rfl
    have e2 : ascii "Content-Length: -" = ascii "Content-Length: " ++ [45] := by decide +kernel
    have e3 : str "\r\n" = ascii "\r\n" := rfl
    simp only [hdrTexts, fileCode, d, hn.1, if_true, e, e2, e3, List.cons_append, List.getElem?_cons_succ, List.getElem?_cons_zero,
      List.append_assoc, List.nil_append]

/-! ### C74 -/

/-- What the status of a response to a file request should be: 200 when the file is sent, 403 when it may not be read, 404 when there is no
such file, 500 when it cannot be opened. -/
def properStatus : Stat → Nat
  | .missing => 404
  | .noType => 404
  | .unreadable => 403
  | .readable _ true => 200
  | .readable _ false => 500

/-- C74. The client reads the proper status and, unless the file is sent, an empty body: for files that can be read and opened, files that may not be read and directory
entries without a type. -/
theorem c74_status_partial (t : SysTime.Tm) (h : SysTime.Ranges t) (hy : 0 ≤ t.year + 1900 ∧ t.year + 1900 < 10000) (date : List UInt8)
    (hd : SysTime.gmt t = some date) (keep : Bool) (p ctype : List UInt8) (hc : mime p = some ctype) (st : Stat) (file : List UInt8)
    (hst : st = .unreadable ∨ st = .noType ∨ (st = .readable file.length true ∧ file.length < 2147483648)) (sys : List Net.SysTx) (rd : List Nat)
    (hdone : (fileResponse st date keep ctype file sys rd).fin = .done) :
    ∃ fs body, RspSpec.read (fileResponse st date keep ctype file sys rd).wire = some (⟨properStatus st, fs, body⟩, []) ∧
      (properStatus st ≠ 200 → body = []) := by
  have key : ∀ code, Ended code → (respond (hdrChain code date keep 0 (some (typeHdr ctype))) file 0 sys rd).fin = .done →
      ∃ fs, RspSpec.read (respond (hdrChain code date keep 0 (some (typeHdr ctype))) file 0 sys rd).wire = some (⟨code, fs, []⟩, []) := by
    intro code he hd1
    have hw : (respond (hdrChain code date keep 0 (some (typeHdr ctype))) file 0 sys rd).wire =
        (hdrChain code date keep 0 (some (typeHdr ctype))).flatten := by
      unfold respond at hd1 ⊢
      simp only [hasPayload, Int.lt_irrefl, decide_false, Bool.false_eq_true, if_false, gt_iff_lt] at hd1 ⊢
      split at hd1
      · simp at hd1
      · simp at hd1
      · rename_i hd2; exact (Net.c19_done_iff_all_sent _ sys).mp hd2
    have := read_ended he keep (ctype := some ctype) [] [] (date_plain h hy hd) (by simp)
      (by intro c e; obtain rfl := Option.mem_some.mp e; exact mime_plain hc)
    rw [hw]
    exact ⟨_, by simpa using this⟩
  rcases hst with rfl | rfl | ⟨rfl, hf⟩
  · obtain ⟨fs, e⟩ := key 403 (Or.inr (Or.inl rfl)) hdone
    exact ⟨fs, [], e, fun _ => rfl⟩
  · obtain ⟨fs, e⟩ := key 404 (Or.inr (Or.inr (Or.inl rfl))) hdone
    exact ⟨fs, [], e, fun _ => rfl⟩
  · obtain ⟨fs, e, -⟩ := c73_file_partial t h hy date hd keep p ctype hc file hf sys rd hdone []
    rw [List.append_nil] at e
    exact ⟨fs, file, e, fun hn => absurd rfl hn⟩

example : (fileResponse .unreadable (ascii "Sun, 15 Nov 2026 04:05:06 GMT") true (ascii "text/plain") [] [.ok 500] []).fin = .done := by
  decide +kernel

/-- C74 is false for files that do not exist: the client reads status 400 instead of 404. -/
theorem c74_missing_counterexample (t : SysTime.Tm) (h : SysTime.Ranges t) (hy : 0 ≤ t.year + 1900 ∧ t.year + 1900 < 10000) (date : List UInt8)
    (hd : SysTime.gmt t = some date) (keep : Bool) (p ctype : List UInt8) (hc : mime p = some ctype) (n : Nat)
    (hn : (hdrChain 400 date keep 0 (some (typeHdr ctype))).flatten.length ≤ n) :
    ∃ fs, RspSpec.read (fileResponse .missing date keep ctype [] (List.replicate n (.ok 1)) []).wire = some (⟨400, fs, []⟩, []) := by
  have hg := Net.c19_progress (hdrChain 400 date keep 0 (some (typeHdr ctype))) (List.replicate n (.ok 1))
    (by simp [Net.SysTx.good]) (by simpa using hn)
  have hw : (fileResponse .missing date keep ctype [] (List.replicate n (.ok 1)) []).wire =
      (hdrChain 400 date keep 0 (some (typeHdr ctype))).flatten := by
    unfold fileResponse respond
    simp only [fileCode, hg, hasPayload, Int.lt_irrefl, decide_false, Bool.false_eq_true, if_false, gt_iff_lt]
    exact (Net.c19_done_iff_all_sent _ _).mp hg
  have := read_bad (code := 400) (by simp [Ended]) keep (ctype := some ctype) [] [] (date_plain h hy hd) (by simp)
    (by intro c e; obtain rfl := Option.mem_some.mp e; exact mime_plain hc)
  rw [hw]
  exact ⟨_, by simpa using this⟩

/-- C74 is false for files that cannot be opened, for example because all descriptors are in use: with an empty file the client reads status
200 instead of 500. -/
theorem c74_open_counterexample (t : SysTime.Tm) (h : SysTime.Ranges t) (hy : 0 ≤ t.year + 1900 ∧ t.year + 1900 < 10000) (date : List UInt8)
    (hd : SysTime.gmt t = some date) (keep : Bool) (p ctype : List UInt8) (hc : mime p = some ctype) (n : Nat)
    (hn : (hdrChain 200 date keep 0 (some (typeHdr ctype))).flatten.length ≤ n) :
    ∃ fs, RspSpec.read (fileResponse (.readable 0 false) date keep ctype [] (List.replicate n (.ok 1)) []).wire = some (⟨200, fs, []⟩, []) := by
  have hg := Net.c19_progress (hdrChain 200 date keep 0 (some (typeHdr ctype))) (List.replicate n (.ok 1))
    (by simp [Net.SysTx.good]) (by simpa using hn)
  have h0 : toInt32 0 = 0 := rfl
  have hw : (fileResponse (.readable 0 false) date keep ctype [] (List.replicate n (.ok 1)) []).wire =
      (hdrChain 200 date keep 0 (some (typeHdr ctype))).flatten := by
    unfold fileResponse respond
    simp only [fileCode, h0, hg, hasPayload, Int.lt_irrefl, decide_false, Bool.false_eq_true, if_false, gt_iff_lt]
    exact (Net.c19_done_iff_all_sent _ _).mp hg
  have := read_ended (code := 200) (Or.inl rfl) keep (ctype := some ctype) [] [] (date_plain h hy hd) (by simp)
    (by intro c e; obtain rfl := Option.mem_some.mp e; exact mime_plain hc)
  rw [hw]
  exact ⟨_, by simpa using this⟩

end Verif.Web
