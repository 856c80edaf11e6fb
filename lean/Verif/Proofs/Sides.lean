import Verif.Spec.Geom
import Mathlib.Data.List.Zip
import Mathlib.Data.List.Rotate
/- Sides of closed lists. -/
namespace Verif.Geom

theorem dirSides_reverse {α : Type} (G : List α) : (dirSides G.reverse).Perm ((dirSides G).map Prod.swap) := by
  unfold dirSides
  rw [List.zip_swap]
  rcases Nat.lt_or_ge 1 G.length with h1 | h1
  · have e : (G.rotate 1).reverse.rotate 1 = G.reverse := by
      rw [List.reverse_rotate, List.rotate_rotate]
      have : G.length - 1 % G.length + 1 = G.reverse.length := by rw [Nat.mod_eq_of_lt h1, List.length_reverse]; omega
      rw [this, List.rotate_length]
    have : G.reverse.zip (G.reverse.rotate 1) = (((G.rotate 1).zip G).reverse).rotate 1 := by
      rw [List.zip_eq_zipWith, List.zip_eq_zipWith, List.reverse_zipWith (by simp), List.zipWith_rotate_distrib _ _ _ _ (by simp), e]
    rw [this]
    exact (List.rotate_perm _ _).trans (List.reverse_perm _)
  · match G, h1 with
    | [], _ => simp
    | [a], _ => simp

theorem dirSides_rotate {α : Type} (G : List α) (n : Nat) : dirSides (G.rotate n) = (dirSides G).rotate n := by
  unfold dirSides
  rw [List.zip_eq_zipWith, List.zip_eq_zipWith, List.zipWith_rotate_distrib _ _ _ _ (by simp), List.rotate_rotate, List.rotate_rotate, Nat.add_comm]

theorem dirSides_map {α β : Type} (f : α → β) (G : List α) : dirSides (G.map f) = (dirSides G).map fun e => (f e.1, f e.2) := by
  unfold dirSides
  rw [← List.map_rotate, List.zip_map]
  rfl

theorem dirSides_cons {α : Type} (a : α) (l : List α) : dirSides (a :: l) = (a :: l).zip (l ++ [a]) := by
  unfold dirSides
  rw [List.rotate_cons_succ, List.rotate_zero]

end Verif.Geom
