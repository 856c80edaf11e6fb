import Verif.Model.Cxx
import Mathlib.Order.Defs.LinearOrder
import Mathlib.Data.List.Basic
/- Standard containers used by several models: `std::set`/`std::map` iterate in increasing key order. -/
namespace Verif

/-- `std::set::insert` on a set given as a strictly increasing list. -/
def setAdd {α : Type} [LinearOrder α] (x : α) : List α → List α
  | [] => [x]
  | y :: l => if x < y then x :: y :: l else if y < x then y :: setAdd x l else y :: l

/-- Insert all the elements of a list. -/
def setAddAll {α : Type} [LinearOrder α] (s : List α) (xs : List α) : List α := xs.foldl (fun s x => setAdd x s) s

theorem mem_setAdd {α : Type} [LinearOrder α] {x y : α} {l : List α} : y ∈ setAdd x l ↔ y = x ∨ y ∈ l := by
  induction l with
  | nil => simp [setAdd]
  | cons z l ih =>
    rw [setAdd]
    split
    · simp
    · split
      · simp only [List.mem_cons, ih]
        constructor
        · rintro (h | h | h)
          · exact Or.inr (Or.inl h)
          · exact Or.inl h
          · exact Or.inr (Or.inr h)
        · rintro (h | h | h)
          · exact Or.inr (Or.inl h)
          · exact Or.inl h
          · exact Or.inr (Or.inr h)
      · rename_i h1 h2
        have : x = z := le_antisymm (not_lt.1 h2) (not_lt.1 h1)
        subst this
        simp

theorem sorted_setAdd {α : Type} [LinearOrder α] {x : α} {l : List α} (h : l.Pairwise (· < ·)) : (setAdd x l).Pairwise (· < ·) := by
  induction l with
  | nil => simp [setAdd]
  | cons z l ih =>
    obtain ⟨h1, h2⟩ := List.pairwise_cons.1 h
    rw [setAdd]
    split
    · rename_i hx
      refine List.pairwise_cons.2 ⟨?_, h⟩
      intro y hy
      rcases List.mem_cons.1 hy with rfl | hy
      · exact hx
      · exact lt_trans hx (h1 y hy)
    · split
      · rename_i hx
        refine List.pairwise_cons.2 ⟨?_, ih h2⟩
        intro y hy
        rcases mem_setAdd.1 hy with rfl | hy
        · exact hx
        · exact h1 y hy
      · exact h

theorem mem_setAddAll {α : Type} [LinearOrder α] {y : α} (xs : List α) : ∀ s : List α, y ∈ setAddAll s xs ↔ y ∈ s ∨ y ∈ xs := by
  unfold setAddAll
  induction xs with
  | nil => simp
  | cons x xs ih =>
    intro s
    rw [List.foldl_cons, ih, mem_setAdd, List.mem_cons]
    constructor
    · rintro ((h | h) | h)
      · exact Or.inr (Or.inl h)
      · exact Or.inl h
      · exact Or.inr (Or.inr h)
    · rintro (h | h | h)
      · exact Or.inl (Or.inr h)
      · exact Or.inl (Or.inl h)
      · exact Or.inr h

theorem sorted_setAddAll {α : Type} [LinearOrder α] (xs : List α) : ∀ s : List α, s.Pairwise (· < ·) → (setAddAll s xs).Pairwise (· < ·) := by
  unfold setAddAll
  induction xs with
  | nil => exact fun s h => h
  | cons x xs ih => exact fun s h => ih _ (sorted_setAdd h)

end Verif
