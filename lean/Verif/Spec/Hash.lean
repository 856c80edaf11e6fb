import Verif.Model.Vec
import Mathlib.Algebra.Order.Floor.Ring
import Mathlib.Algebra.Order.Archimedean.Real.Basic
import Mathlib.Data.Real.Basic
/- Quantization cells of a box. -/
namespace Verif.Hash
open Verif.Geom

/-- The width of the quantization cells of an interval divided into `n` parts, not less than the tolerance and the machine precision. -/
noncomputable def width (n : Int) (eps tol lo hi : ℝ) : ℝ := max ((hi - lo) / (n : ℝ)) (max tol eps)

/-- The quantization cell of `x`. -/
noncomputable def cellIx (n : Int) (eps tol lo hi x : ℝ) : Int := ⌊(x - lo) / width n eps tol lo hi⌋

end Verif.Hash

namespace Verif.Hash
/-- `uniq` lists the first of each class of equal `points` in the order in which the classes appear, and `ix` says for every point which entry of `uniq` stands for it. -/
structure FirstOf {α : Type} (same : α → α → Prop) (points uniq : List α) (ix : List Nat) : Prop where
  /-- one entry of the map for each point -/
  length : ix.length = points.length
  /-- every point is equal to what stands for it -/
  maps : ∀ (i : Nat) (p : α), points[i]? = some p → ∃ k r, ix[i]? = some k ∧ uniq[k]? = some r ∧ same r p
  /-- no two entries are equal -/
  distinct : uniq.Pairwise fun a b => ¬ same a b
  /-- every entry is a point, mapped to itself, and all the points before it are mapped to entries before it -/
  first : ∀ (k : Nat) (r : α), uniq[k]? = some r → ∃ i : Nat, points[i]? = some r ∧ ix[i]? = some k ∧ ∀ j : Nat, j < i → ∃ k' < k, ix[j]? = some k'
end Verif.Hash
