import Verif.Spec.Config
import Verif.Props.CJson
/-
Lemmas about reading the configuration.
-/
namespace Verif.Config
open Verif.CJson Verif.Config.Spec

theorem up_lower (b : UInt8) : up (lower b) = up b := byte_all (p := fun b => up (lower b) = up b) (by decide +kernel) b

theorem lower_up (b : UInt8) : lower (up b) = lower b := byte_all (p := fun b => lower (up b) = lower b) (by decide +kernel) b

theorem lower_zero (b : UInt8) : lower b = 0 ↔ b = 0 := byte_all (p := fun b => lower b = 0 ↔ b = 0) (by decide +kernel) b

theorem lower_iff (a b : UInt8) : lower a = lower b ↔ up a = up b := by
  constructor
  · intro h; rw [← up_lower a, h, up_lower]
  · intro h; rw [← lower_up a, h, lower_up]

theorem same_iff {a b : List UInt8} (ha : 0 ∉ a) (hb : 0 ∉ b) : same a b = true ↔ Alike a b := by
  unfold Alike
  induction a generalizing b with
  | nil =>
    rw [same.eq_def]
    cases b with
    | nil => simp [front]
    | cons y b =>
      have : y ≠ 0 := by rintro rfl; simp at hb
      have h2 : ¬ lower 0 = lower y := by
        intro h; exact this ((lower_zero y).mp (h ▸ (by decide)))
      simp [front, h2]
  | cons x a ih =>
    have hx : x ≠ 0 := by rintro rfl; simp at ha
    rw [same.eq_def]
    cases b with
    | nil =>
      have h2 : ¬ lower x = lower 0 := by
        intro h; exact hx ((lower_zero x).mp (h.trans (by decide)))
      simp [front, h2]
    | cons y b =>
      simp only [List.mem_cons, not_or] at ha hb
      simp only [front, hx, if_false, List.drop_one, List.tail_cons, List.map_cons, List.cons.injEq, lower_iff]
      by_cases h : up x = up y
      · simp [h, ih ha.2 hb.2]
      · simp [h]

theorem item_silent {l : List (List UInt8 × J Int)} (hn : ∀ m ∈ l, 0 ∉ m.1) {k : String} (hk : 0 ∉ k.toUTF8.toList) (h : Silent l k) :
    item (.obj l) (nm k) = none := by
  simp only [item, Option.map_eq_none_iff, List.find?_eq_none]
  intro m hm hs
  exact h m hm ((same_iff hk (hn m hm)).mp hs)

theorem item_says {l : List (List UInt8 × J Int)} (hn : ∀ m ∈ l, 0 ∉ m.1) {k : String} (hk : 0 ∉ k.toUTF8.toList) {j : J Int} (h : Says l k j) :
    item (.obj l) (nm k) = some j := by
  obtain ⟨pre, post, rfl, hp, _⟩ := h
  simp only [item]
  rw [List.find?_append, List.find?_eq_none.mpr, Option.none_or, List.find?_cons_of_pos]
  · rfl
  · exact (same_iff hk hk).mpr rfl
  · intro m hm hs
    exact hp m hm ((same_iff hk (hn m (by simp [hm]))).mp hs)

theorem takeWhile_plain {t : List UInt8} (h : 0 ∉ t) : t.takeWhile (· ≠ 0) = t := by
  apply takeWhile_all
  intro b hb
  rw [decide_eq_true_eq]
  rintro rfl; exact h hb

theorem number_of {l : List (List UInt8 × J Int)} (hn : ∀ m ∈ l, 0 ∉ m.1) {k : String} (hk : 0 ∉ k.toUTF8.toList) {d v : Int} (h : Num l k d v) :
    number d (item (.obj l) (nm k)) = v := by
  rcases h with ⟨h, rfl⟩ | h | ⟨h, rfl⟩ | ⟨h, rfl⟩
  · rw [item_silent hn hk h]; rfl
  · rw [item_says hn hk h]; rfl
  · rw [item_says hn hk h]; rfl
  · rw [item_says hn hk h]; rfl

theorem ushort_of {p : Nat} (h : p < 65536) : ushort p = p := by
  unfold ushort
  omega

theorem port_of {l : List (List UInt8 × J Int)} (hn : ∀ m ∈ l, 0 ∉ m.1) {k : String} (hk : 0 ∉ k.toUTF8.toList) {p : Nat} (hp : p < 65536)
    (h : Port l k p) : port 0 (item (.obj l) (nm k)) = p := by
  rcases h with ⟨h, rfl⟩ | h
  · rw [item_silent hn hk h]; rfl
  · rw [item_says hn hk h]; exact ushort_of hp

theorem text_of {l : List (List UInt8 × J Int)} (hn : ∀ m ∈ l, 0 ∉ m.1) {k : String} (hk : 0 ∉ k.toUTF8.toList) {n : Nat} {t : List UInt8}
    (ht : Fit n t) (h : Text l k t) : text n (item (.obj l) (nm k)) = .ok t := by
  rcases h with ⟨h, rfl⟩ | h
  · rw [item_silent hn hk h]; rfl
  · rw [item_says hn hk h]
    simp only [text]
    rw [takeWhile_plain ht.1, List.take_of_length_le ht.2]

theorem ports_of {l : List (List UInt8 × J Int)} (hn : ∀ m ∈ l, 0 ∉ m.1) {k : String} (hk : 0 ∉ k.toUTF8.toList) {ps : List Nat}
    (hp : ps.length ≤ 64 ∧ ∀ p ∈ ps, p < 65536) (h : Ports l k ps) :
    size (item (.obj l) (nm k)) = ps.length ∧ ports (item (.obj l) (nm k)) = .ok (ps ++ List.replicate (64 - ps.length) 0) := by
  rcases h with ⟨h, rfl⟩ | h
  · rw [item_silent hn hk h]; exact ⟨rfl, rfl⟩
  · rw [item_says hn hk h]
    have hl : (children (.arr (ps.map fun p : Nat => J.num (p : Int)))).length = ps.length := by simp [children]
    refine ⟨hl, ?_⟩
    unfold ports
    simp only [hl]
    rw [if_neg (by omega)]
    congr 2
    simp only [children, List.map_map]
    refine (List.map_congr_left (g := id) ?_).trans (List.map_id ps)
    intro p hp'
    exact ushort_of (hp.2 p hp')

theorem fill_of {l : List (List UInt8 × J Int)} {s : Settings} (h : Writes l s) (hf : Fits s) : ∃ c, fill (.obj l) = .ok c ∧ Holds c s ∧ c.httpArr.length = 64 ∧ c.httpsArr.length = 64 := by
  have hn := h.names
  obtain ⟨h1, h2⟩ := ports_of hn (by decide +kernel) hf.http h.http
  obtain ⟨h3, h4⟩ := ports_of hn (by decide +kernel) hf.https h.https
  unfold fill
  rw [text_of hn (by decide +kernel) hf.crt h.crt, text_of hn (by decide +kernel) hf.key h.key, text_of hn (by decide +kernel) hf.authPath h.authPath,
    text_of hn (by decide +kernel) hf.gw h.gw, text_of hn (by decide +kernel) hf.localServIp h.localServIp,
    text_of hn (by decide +kernel) hf.localAuth h.localAuth, h2, h4, text_of hn (by decide +kernel) hf.home h.home,
    text_of hn (by decide +kernel) hf.index h.index]
  refine ⟨_, rfl, ?_, by have := hf.http.1; simp; omega, by have := hf.https.1; simp; omega⟩
  constructor <;> dsimp only
  · exact number_of hn (by decide +kernel) h.daemon
  · exact number_of hn (by decide +kernel) h.process
  · exact number_of hn (by decide +kernel) h.level
  · exact number_of hn (by decide +kernel) h.mode
  · exact port_of hn (by decide +kernel) hf.servPort h.servPort
  · exact port_of hn (by decide +kernel) hf.localPort h.localPort
  · exact port_of hn (by decide +kernel) hf.localServPort h.localServPort
  · rw [h1]; exact ⟨rfl, by simp⟩
  · rw [h3]; exact ⟨rfl, by simp⟩

theorem readLoop_full {file : List UInt8} {rd : Nat → Option Nat} (hr : ∀ o, ∃ k, rd o = some (k + 1)) (n : Nat) :
    ∀ got rest, n = rest.length → file = got ++ rest → readLoop file rd file.length got = file := by
  induction n using Nat.strongRecOn with
  | _ n ih =>
    intro got rest hn hf
    rw [readLoop.eq_def]
    split
    · rename_i hlt
      obtain ⟨k, hk⟩ := hr got.length
      cases rest with
      | nil => simp [hf] at hlt
      | cons b bs =>
        have hd : readAt file rd got.length (file.length + 1 - got.length) = some (b :: bs.take k) := by
          unfold readAt
          rw [hk, Option.map_some]
          congr 1
          rw [List.take_of_length_le (l := file.drop got.length) (by simp; omega), hf, List.drop_left, List.take_succ_cons]
        rw [hd]
        dsimp only
        apply ih (bs.drop k).length
        · simp at hn ⊢; omega
        · rfl
        · rw [hf, List.append_assoc, List.cons_append, List.take_append_drop]
    · rename_i hge
      have : rest = [] := by
        apply List.length_eq_zero_iff.mp
        rw [hf] at hge; simp at hge; exact List.length_eq_zero_iff.mpr hge
      rw [hf, this, List.append_nil]

theorem init_whole {strtod : List UInt8 → Nat × Int} {file : List UInt8} {rd : Nat → Option Nat} (hr : ∀ o, ∃ k, rd o = some (k + 1)) (hz : 0 ∉ file) :
    init strtod (some file.length) (some file) rd = parseText strtod file := by
  have hl : readLoop file rd file.length [] = file := readLoop_full hr file.length [] file rfl rfl
  unfold init
  dsimp only
  rw [hl]
  unfold cstring
  rw [takeWhile_plain hz, if_neg (by omega)]

/-! ### Listening -/

theorem listenAdd_free (u : List Entry) (n : Nat) (e : Entry) :
    listenAdd (u.map some ++ List.replicate n none) e = (u ++ [e].take n).map some ++ List.replicate (n - 1) none := by
  induction u with
  | nil => cases n <;> simp [listenAdd, List.replicate_succ]
  | cons x u ih => simp only [List.map_cons, List.cons_append, listenAdd, ih]

theorem foldl_add (mk : Nat → Entry) (ps : List Nat) (u : List Entry) (n : Nat) :
    ps.foldl (fun t p => listenAdd t (mk p)) (u.map some ++ List.replicate n none) =
      (u ++ (ps.map mk).take n).map some ++ List.replicate (n - ps.length) none := by
  induction ps generalizing u n with
  | nil => simp
  | cons p ps ih =>
    rw [List.foldl_cons, listenAdd_free, ih]
    cases n with
    | zero => simp
    | succ n => simp [Nat.add_sub_add_right]

theorem listenStart_ok {sys : Nat → Bool} (u : List Entry) (n : Nat) (h : ∀ e ∈ u, sys e.port = true) :
    listenStart sys (u.map some ++ List.replicate n none) = (true, u) := by
  induction u with
  | nil =>
    induction n with
    | zero => rfl
    | succ n ih => rw [List.replicate_succ]; exact ih
  | cons e u ih =>
    simp only [List.map_cons, List.cons_append, listenStart]
    rw [ih fun x hx => h x (by simp [hx]), if_pos (h e (by simp))]

theorem listenTable_of {c : Cfg} {s : Settings} (h : Holds c s) (h1 : c.httpArr.length = 64) (h2 : c.httpsArr.length = 64) (hf : Fits s) :
    listenTable c = .ok (((wanted s).take 8).map some ++ List.replicate (8 - (wanted s).length) none) := by
  unfold listenTable firstPorts
  rw [if_neg (by rw [h.http.1, h1]; have := hf.http.1; omega), if_neg (by rw [h.https.1, h2]; have := hf.https.1; omega), h.http.2, h.https.2]
  simp only [Except.bind, bind, pure, Except.pure]
  rw [h.mode, h.localPort, h.servPort]
  have base : ∀ e, listenAdd (List.replicate 8 none) e = [e].map some ++ List.replicate 7 none := fun e => rfl
  have key : ∀ (u : List Entry) (n : Nat),
      s.https.foldl (fun t p => listenAdd t ⟨p, .webSsl, true⟩) (s.http.foldl (fun t p => listenAdd t ⟨p, .web, false⟩) (u.map some ++ List.replicate n none)) =
        (u ++ (s.http.map (fun p => (⟨p, .web, false⟩ : Entry)) ++ s.https.map (fun p => (⟨p, .webSsl, true⟩ : Entry))).take n).map some ++
          List.replicate (n - (s.http.length + s.https.length)) none := by
    intro u n
    rw [foldl_add (fun p => ⟨p, .web, false⟩), foldl_add (fun p => ⟨p, .webSsl, true⟩), List.append_assoc, List.take_append, List.length_map, Nat.sub_sub]
  unfold wanted
  split
  · rw [base, key]
    congr 1
    simp only [List.append_assoc, List.length_append, List.length_map, List.length_cons, List.length_nil]
    rw [show 8 - (0 + 1 + (s.http.length + s.https.length)) = 7 - (s.http.length + s.https.length) by omega]
    rfl
  · split
    · rw [base, key]
      congr 1
      simp only [List.append_assoc, List.length_append, List.length_map, List.length_cons, List.length_nil]
      rw [show 8 - (0 + 1 + (s.http.length + s.https.length)) = 7 - (s.http.length + s.https.length) by omega]
      rfl
    · have := key [] 8
      simp only [List.map_nil, List.nil_append] at this
      rw [this]
      simp
end Verif.Config
