import Verif.Spec.Crossing
/- What the queries of the class `Polygon` mean. -/
namespace Verif.Poly
open Verif Verif.Geom
variable {K : Type} [Field K] [LinearOrder K]

/-- Edge `i` of a polygon: from vertex `i` to the next one, which for the last is the first. -/
def edge (vs : List (V2 K)) (i : Nat) : V2 K × V2 K := (vs.getD i 0, vs.getD ((i + 1) % vs.length) 0)

/-- The segment from `s1` to `s2` meets edge `i`, which is not parallel to it, at the parameter `t`. -/
def Meets (vs : List (V2 K)) (s1 s2 : V2 K) (i : Nat) (t : K) : Prop :=
  i < vs.length ∧ 0 ≤ t ∧ t ≤ 1 ∧ OnSeg (edge vs i).1 (edge vs i).2 (lerp2 s1 s2 t) ∧
    ((edge vs i).2.y - (edge vs i).1.y) * (s2.x - s1.x) ≠ ((edge vs i).2.x - (edge vs i).1.x) * (s2.y - s1.y)

/-- `q` is the point of the segment `e` nearest to `p`. -/
def NearestOn (e : V2 K × V2 K) (p q : V2 K) : Prop := OnSeg e.1 e.2 q ∧ ∀ r, OnSeg e.1 e.2 r → sq2 p q ≤ sq2 p r
end Verif.Poly
