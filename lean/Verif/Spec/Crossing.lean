import Verif.Spec.Polygon
import Mathlib.Data.Nat.Cast.Order.Basic
import Mathlib.Algebra.Group.Nat.Even
/- How a segment meets the sides of a polygon. -/
namespace Verif.Geom
open Verif Verif.Mesh
variable {K : Type} [Field K] [LinearOrder K]

/-- The segments `pq` and `e` have no point in common. -/
def Misses (p q : V2 K) (e : V2 K × V2 K) : Prop := ∀ x, OnSeg p q x → ¬ OnSeg e.1 e.2 x

/-- The segments `pq` and `e` cross: the ends of each are strictly on different sides of the other. -/
def Crosses (p q : V2 K) (e : V2 K × V2 K) : Prop := area2 p q e.1 * area2 p q e.2 < 0 ∧ area2 e.1 e.2 p * area2 e.1 e.2 q < 0

instance (p q : V2 K) (e : V2 K × V2 K) : Decidable (Crosses p q e) := by unfold Crosses; infer_instance

/-- `p` is beyond all the corners in one of the four directions of the axes. -/
def Beyond (vs : List (V2 K)) (p : V2 K) : Prop :=
  (∀ v ∈ vs, v.x < p.x) ∨ (∀ v ∈ vs, p.x < v.x) ∨ (∀ v ∈ vs, v.y < p.y) ∨ (∀ v ∈ vs, p.y < v.y)

/-- The number of sides of the polygon that the segment `pq` crosses. -/
def crossed (vs : List (V2 K)) (p q : V2 K) : Nat := (dirSides vs).countP fun e => decide (Crosses p q e)

/-- The number of sides of the polygon that contain `p`. -/
noncomputable def sidesAt (vs : List (V2 K)) (p : V2 K) : Nat := by classical exact (dirSides vs).countP fun e => decide (OnSeg e.1 e.2 p)

/-- Inside by the even-odd rule: on a straight way to a point beyond all the corners, which crosses every side that it meets, there is an odd number of sides. -/
def EvenOddIn (vs : List (V2 K)) (p : V2 K) : Prop := ∃ q, Beyond vs q ∧ (∀ e ∈ dirSides vs, Misses p q e ∨ Crosses p q e) ∧ Odd (crossed vs p q)
end Verif.Geom
