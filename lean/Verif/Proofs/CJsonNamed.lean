import Verif.Model.CJsonNamed
import Verif.Proofs.CJsonEdit
/-
Helper lemmas for C121.
-/
namespace Verif.CJsonMem
open Verif.CJson

variable {V : Type} {h h' : H V} {ok : Nat → Bool}

theorem Run.live {cs : List Nat} : ∀ {pv nx : Option Nat}, Run h pv cs nx → ∀ b ∈ cs, ∃ it, h.cells b = some (.item it) := by
  induction cs with
  | nil => intro _ _ _ b hb; cases hb
  | cons c cs ih =>
    rintro pv nx ⟨⟨it, e, -, -⟩, hr⟩ b hb
    rcases List.mem_cons.mp hb with rfl | hb
    · exact ⟨it, e⟩
    · exact ih hr b hb

theorem Ring.live {p : Nat} {cs : List Nat} (hr : Ring h p cs) : ∀ b ∈ p :: cs, ∃ it, h.cells b = some (.item it) := by
  obtain ⟨-, ⟨par, ep, -⟩, run⟩ := hr
  intro b hb
  rcases List.mem_cons.mp hb with rfl | hb
  · exact ⟨par, ep⟩
  · exact run.live b hb

theorem Ring.congr {p : Nat} {cs : List Nat} (hr : Ring h p cs) (hc : ∀ b ∈ p :: cs, h'.cells b = h.cells b) : Ring h' p cs := by
  obtain ⟨nd, ⟨par, ep, e⟩, run⟩ := hr
  exact ⟨nd, ⟨par, by rw [hc p (by simp)]; exact ep, e⟩, run.congr fun b hb => hc b (List.mem_cons_of_mem p hb)⟩

theorem live_ne (hf : Fresh h) {b : Nat} {c : Cell V} (e : h.cells b = some c) : b ≠ h.used := by
  rintro rfl
  rw [hf _ (Nat.le_refl _)] at e
  cases e

theorem strdup_ok {s : Nat} {nm : List UInt8} (hs : h.cells s = some (.bytes nm)) (hok : ok h.used = true) :
    strdup ok h (some s) = some (true, some h.used, { used := h.used + 1, cells := fun b => if b = h.used then some (.bytes (nm.takeWhile (· ≠ 0))) else h.cells b }) := by
  simp [strdup, hs, alloc, hok]

theorem strdup_no {s : Nat} {nm : List UInt8} (hs : h.cells s = some (.bytes nm)) (hok : ok h.used = false) :
    strdup ok h (some s) = some (false, none, { h with used := h.used + 1 }) := by
  simp [strdup, hs, alloc, hok]

theorem freeOpt_name {o : Option Nat} (ho : ∀ b, o = some b → ∃ bs, h.cells b = some (.bytes bs)) :
    ∃ h', freeOpt h o = some h' ∧ h'.used = h.used ∧ ∀ b, h'.cells b = if o = some b then none else h.cells b := by
  cases o with
  | none => exact ⟨h, rfl, rfl, fun b => by simp⟩
  | some a =>
    obtain ⟨bs, e⟩ := ho a rfl
    refine ⟨h.set a none, by simp [freeOpt, free, e], rfl, fun b => ?_⟩
    rw [set_cells]
    by_cases hb : b = a
    · subst hb; simp
    · rw [if_neg hb, if_neg (fun e => hb (Option.some.inj e).symm)]

theorem find_run (nm : List UInt8) (names : Nat → List UInt8) : ∀ {cs : List Nat} {pv : Option Nat} (n : Nat), Run h pv cs none →
    (∀ c ∈ cs, ∃ it b, h.cells c = some (.item it) ∧ it.str = some b ∧ h.cells b = some (.bytes (names c))) → cs.length ≤ n →
    find nm n h (headOr cs none) = some (cs.find? fun c => Config.same nm (names c)) := by
  intro cs
  induction cs with
  | nil => intro pv n _ _ _; cases n <;> rfl
  | cons c cs ih =>
    rintro pv n ⟨⟨it, e, -, en⟩, hr⟩ hn hl
    obtain ⟨n, rfl⟩ : ∃ m, n = m + 1 := ⟨n - 1, by simp at hl; omega⟩
    obtain ⟨it', b, e1, e2, e3⟩ := hn c (by simp)
    rw [e] at e1
    cases e1
    rw [headOr, find, item_eq e, Option.bind_some, e2]
    dsimp only
    rw [e3]
    dsimp only
    rw [en, ih n hr (fun c hc => hn c (by simp [hc])) (by simpa using hl), List.find?_cons]
    cases Config.same nm (names c) <;> rfl

theorem objectItem_ring {p : Nat} {cs : List Nat} (hr : Ring h p cs) (nm : List UInt8) (names : Nat → List UInt8) (n : Nat)
    (hn : ∀ c ∈ cs, ∃ it b, h.cells c = some (.item it) ∧ it.str = some b ∧ h.cells b = some (.bytes (names c))) (hl : cs.length ≤ n) :
    objectItem n h p nm = some (cs.find? fun c => Config.same nm (names c)) := by
  obtain ⟨-, ⟨par, ep, hc⟩, run⟩ := hr
  rw [objectItem, item_eq ep, Option.bind_some, hc, head?_headOr]
  exact find_run nm names n run hn hl

theorem seg_live {p q : Option Nat} {xs : List (Option (List UInt8) × J V)} {S : List Nat} (hs : Seg h p xs S q) : ∀ b ∈ S, (h.cells b).isSome = true := by
  induction hs with
  | nil => intro b hb; cases hb
  | plain a1 a2 a3 a4 a5 ih =>
    intro b hb
    simp only [List.mem_cons, List.mem_append] at hb
    rcases hb with rfl | (hb | hb) | hb
    · rw [a1]; rfl
    · exact a2.str.some_of_mem hb
    · exact a3.str.some_of_mem hb
    · exact ih b hb
  | arr a1 a2 a3 a4 a5 a6 ih1 ih2 =>
    intro b hb
    simp only [List.mem_cons, List.mem_append] at hb
    rcases hb with rfl | (hb | hb) | hb
    · rw [a1]; rfl
    · exact a2.str.some_of_mem hb
    · exact ih1 b hb
    · exact ih2 b hb
  | obj a1 a2 a3 a4 a5 a6 ih1 ih2 =>
    intro b hb
    simp only [List.mem_cons, List.mem_append] at hb
    rcases hb with rfl | (hb | hb) | hb
    · rw [a1]; rfl
    · exact a2.str.some_of_mem hb
    · exact ih1 b hb
    · exact ih2 b hb

end Verif.CJsonMem
