import Verif.Model.EzHash
import Verif.Spec.EzHash
import Mathlib.Data.List.Induction
import Mathlib.Data.List.Nodup
/-
Histories of the hash table and their refinement to the first-write-wins map.
-/
namespace Verif.EzHash

variable {V : Type}

/-- One operation on the table; `none` when the program aborts (src/common/mem.c:137). -/
def step (hf : Key → UInt32) (t : Tab V) : Op Key V → Option (Tab V)
  | .put k v m1 m2 m3 =>
    match add hf t k v m1 m2 m3 with
    | .ok t' => some t'
    | .noMem => some t
    | .abort => none
  | .rem k => some (del hf t k)
  | .purge p => some (sweep t p)

/-- A history of operations. -/
def run (hf : Key → UInt32) (t : Tab V) : List (Op Key V) → Option (Tab V)
  | [] => some t
  | op :: r =>
    match step hf t op with
    | some t' => run hf t' r
    | none => none

theorem walk_append (k : Key) (a b : List (Key × V)) : walk k (a ++ b) = (walk k a).or (walk k b) := by
  induction a with
  | nil => simp [walk]
  | cons e r ih =>
    obtain ⟨k', v⟩ := e
    simp only [List.cons_append, walk]
    split
    · simp
    · exact ih

theorem walk_filter_ne (k : Key) (l : List (Key × V)) (q : Key × V → Bool)
    (h : ∀ v, q (k, v) = true) : walk k (l.filter q) = walk k l := by
  induction l with
  | nil => rfl
  | cons e r ih =>
    obtain ⟨k', v⟩ := e
    by_cases hk : k' = k
    · subst hk; simp [List.filter, h, walk]
    · cases hq : q (k', v) <;> simp [List.filter, hq, walk, hk, ih]

theorem walk_filter_none (k : Key) (l : List (Key × V)) (q : Key × V → Bool)
    (h : ∀ v, q (k, v) = false) : walk k (l.filter q) = none := by
  induction l with
  | nil => rfl
  | cons e r ih =>
    obtain ⟨k', v⟩ := e
    by_cases hk : k' = k
    · subst hk; simp [List.filter, h, ih]
    · cases hq : q (k', v) <;> simp [List.filter, hq, walk, hk, ih]

/-- At most one entry per key in every bucket. -/
def Uniq (t : Tab V) : Prop := 0 < t.arrn ∧ ∀ i, ((t.arr i).map Prod.fst).Nodup

theorem walk_none (k : Key) (l : List (Key × V)) : walk k l = none ↔ k ∉ l.map Prod.fst := by
  induction l with
  | nil => simp [walk]
  | cons e r ih =>
    obtain ⟨k', v⟩ := e
    by_cases hk : k' = k
    · subst hk; simp [walk]
    · simp only [walk, hk, and_false, if_false, ih, List.map_cons, List.mem_cons]
      constructor
      · intro h hc
        cases hc with
        | inl h' => exact hk h'.symm
        | inr h' => exact h h'
      · intro h hc; exact h (Or.inr hc)

theorem walk_filter_val (k : Key) (l : List (Key × V)) (p : V → Bool) (hn : (l.map Prod.fst).Nodup) :
    walk k (l.filter fun e => !p e.2) =
      match walk k l with
      | none => none
      | some v => if p v then none else some v := by
  induction l with
  | nil => rfl
  | cons e r ih =>
    obtain ⟨k', v⟩ := e
    simp only [List.map_cons, List.nodup_cons] at hn
    have ih := ih hn.2
    by_cases hk : k' = k
    · subst hk
      have hr : walk k' r = none := (walk_none _ _).mpr hn.1
      rw [hr] at ih
      cases hp : p v <;> simp [List.filter, hp, walk, ih]
    · cases hp : p v <;> simp [List.filter, hp, walk, hk, ih]

theorem step_uniq {hf : Key → UInt32} {t t' : Tab V} {op : Op Key V} (u : Uniq t) (h : step hf t op = some t') :
    Uniq t' := by
  cases op with
  | put k v m1 m2 m3 =>
    simp only [step, add] at h
    split at h
    case h_2 => cases h; exact u
    case h_3 => cases h
    case h_1 hh =>
      cases h
      split at hh
      · cases hh; exact u
      · rename_i hfind
        split at hh; · cases hh
        split at hh; · cases hh
        split at hh; · cases hh
        split at hh; · cases hh
        cases hh
        refine ⟨u.1, fun i => ?_⟩
        simp only [Tab.set]
        split
        · have := (walk_none _ _).mp hfind
          rw [List.map_append, List.nodup_append']
          refine ⟨u.2 _, by simp, ?_⟩
          intro x hx hx'
          simp only [List.map_cons, List.map_nil, List.mem_singleton] at hx'
          subst hx'; exact this hx
        · exact u.2 i
  | rem k =>
    cases h
    refine ⟨u.1, fun i => ?_⟩
    simp only [del, Tab.set]
    split
    · exact (u.2 _).sublist (List.Sublist.map _ List.filter_sublist)
    · exact u.2 i
  | purge p =>
    cases h
    refine ⟨u.1, fun i => ?_⟩
    simp only [sweep]
    split
    · exact (u.2 _).sublist (List.Sublist.map _ List.filter_sublist)
    · exact u.2 i

theorem find_set (hf : Key → UInt32) (t : Tab V) (i : Nat) (l : List (Key × V)) (k : Key) :
    find hf (t.set i l) k = if idx hf t k = i then walk k l else find hf t k := by
  show walk k (if idx hf t k = i then l else t.arr (idx hf t k)) = _
  split <;> rfl

theorem find_step {hf : Key → UInt32} {t t' : Tab V} {op : Op Key V} (u : Uniq t) (h : step hf t op = some t') (k : Key) :
    find hf t' k = valueOf k (find hf t k) [op] := by
  cases op with
  | put k' v m1 m2 m3 =>
    simp only [step, add] at h
    simp only [valueOf]
    split at h
    case h_3 => cases h
    case h_2 hh =>
      cases h
      split at hh
      · cases hh
      · rename_i hfind
        by_cases hk : k' = k
        · subst hk
          cases m1 <;> cases m2 <;> cases m3 <;> simp at hh ⊢
          split at hh <;> cases hh
        · simp [hk]
    case h_1 hh =>
      cases h
      split at hh
      · rename_i v' hfind
        cases hh
        by_cases hk : k' = k
        · subst hk; simp [hfind]
        · simp [hk]
      · rename_i hfind
        split at hh; · cases hh
        split at hh; · cases hh
        split at hh; · cases hh
        split at hh; · cases hh
        rename_i h1 _ h2 h3
        simp only [Bool.not_eq_false] at h1 h2 h3
        cases hh
        subst h1 h2 h3
        simp only [and_true]
        by_cases hk : k' = k
        · subst hk
          rw [hfind]
          have : walk k' (t.arr (idx hf t k')) = none := hfind
          rw [find_set, if_pos rfl, walk_append, this]
          simp [walk]
        · simp only [hk, false_and, if_false]
          rw [find_set]
          split
          · rename_i he
            rw [walk_append, find, he]
            simp [walk, hk]
          · rfl
  | rem k' =>
    cases h
    simp only [valueOf]
    by_cases hk : k' = k
    · subst hk
      rw [del, find_set, if_pos rfl]
      simp only [if_true]
      exact walk_filter_none _ _ _ (by simp)
    · simp only [hk, if_false]
      rw [del, find_set]
      split
      · rename_i he
        rw [walk_filter_ne, find, he]
        intro v; simp; exact Or.inr (Ne.symm hk)
      · rfl
  | purge p =>
    cases h
    simp only [valueOf]
    have hlt : idx hf t k < t.arrn := Nat.mod_lt _ u.1
    have := walk_filter_val k (t.arr (idx hf t k)) p (u.2 _)
    show walk k (if idx hf t k < t.arrn then (t.arr (idx hf t k)).filter fun e => !p e.2 else t.arr (idx hf t k)) = _
    rw [if_pos hlt]; exact this

theorem valueOf_append {K : Type} [DecidableEq K] (k : K) (a b : List (Op K V)) :
    ∀ cur, valueOf k cur (a ++ b) = valueOf k (valueOf k cur a) b := by
  induction a with
  | nil => intro cur; rfl
  | cons op r ih =>
    intro cur
    cases op <;> simp only [List.cons_append, valueOf, ih]

theorem run_find {hf : Key → UInt32} (ops : List (Op Key V)) : ∀ {t t' : Tab V}, Uniq t → run hf t ops = some t' →
    Uniq t' ∧ ∀ k, find hf t' k = valueOf k (find hf t k) ops := by
  induction ops with
  | nil => intro t t' u h; cases h; exact ⟨u, fun k => rfl⟩
  | cons op r ih =>
    intro t t' u h
    simp only [run] at h
    split at h
    · rename_i t1 hs
      obtain ⟨u', hk⟩ := ih (step_uniq u hs) h
      refine ⟨u', fun k => ?_⟩
      rw [hk k, find_step u hs k, ← valueOf_append]; rfl
    · cases h

theorem create_uniq (n : Nat) (h : 0 < n) : Uniq (create V n) := ⟨h, fun _ => by simp [create]⟩

/-- The history specification in words: the value after a history is `v` iff some insertion of exactly that key with that
value found the key absent and got memory, and no later operation removed it. -/
theorem valueOf_some {K : Type} [DecidableEq K] (k : K) (v : V) (ops : List (Op K V)) :
    valueOf k none ops = some v ↔
      ∃ pre post, ops = pre ++ Op.put k v true true true :: post ∧ valueOf k none pre = none ∧
        ∀ op ∈ post, Spares k v op := by
  have key : ∀ ops : List (Op K V), (∀ op ∈ ops, Spares k v op) → valueOf k (some v) ops = some v := by
    intro ops
    induction ops with
    | nil => intro _; rfl
    | cons op r ih =>
      intro h
      have h1 := h op (by simp)
      have h2 := ih (fun o ho => h o (List.mem_cons_of_mem _ ho))
      cases op with
      | put k' v' m1 m2 m3 => simpa [valueOf] using h2
      | rem k' => simp only [Spares] at h1; simpa [valueOf, h1] using h2
      | purge p => simp only [Spares] at h1; simpa [valueOf, h1] using h2
  constructor
  · induction ops using List.reverseRecOn with
    | nil => intro h; cases h
    | append_singleton ops op ih =>
      intro h
      rw [valueOf_append] at h
      cases op with
      | put k' v' m1 m2 m3 =>
        simp only [valueOf] at h
        split at h
        · rename_i hc
          obtain ⟨rfl, hn, rfl, rfl, rfl⟩ := hc
          cases h
          exact ⟨ops, [], rfl, hn, by simp⟩
        · obtain ⟨pre, post, rfl, hp, hs⟩ := ih h
          refine ⟨pre, post ++ [.put k' v' m1 m2 m3], by simp, hp, ?_⟩
          intro o ho
          rw [List.mem_append] at ho
          cases ho with
          | inl ho => exact hs o ho
          | inr ho => simp only [List.mem_singleton] at ho; subst ho; trivial
      | rem k' =>
        simp only [valueOf] at h
        split at h
        · cases h
        · rename_i hk
          obtain ⟨pre, post, rfl, hp, hs⟩ := ih h
          refine ⟨pre, post ++ [.rem k'], by simp, hp, ?_⟩
          intro o ho
          rw [List.mem_append] at ho
          cases ho with
          | inl ho => exact hs o ho
          | inr ho => simp only [List.mem_singleton] at ho; subst ho; exact hk
      | purge p =>
        simp only [valueOf] at h
        split at h
        · cases h
        · rename_i v' hv
          split at h
          · cases h
          · rename_i hp'
            cases h
            obtain ⟨pre, post, rfl, hp, hs⟩ := ih hv
            refine ⟨pre, post ++ [.purge p], by simp, hp, ?_⟩
            intro o ho
            rw [List.mem_append] at ho
            cases ho with
            | inl ho => exact hs o ho
            | inr ho =>
              simp only [List.mem_singleton] at ho; subst ho
              simpa [Spares] using hp'
  · rintro ⟨pre, post, rfl, hp, hs⟩
    rw [valueOf_append, hp]
    simp only [valueOf, and_self, if_true]
    exact key post hs

end Verif.EzHash
