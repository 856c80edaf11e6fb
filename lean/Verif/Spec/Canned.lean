import Verif.Spec.Hull3
/- Cylinders and balls, and the solid that a closed surface of triangles bounds. -/
namespace Verif.Canned
open Verif Verif.Geom Verif.Hull3

/-- The positions on or behind all facets of a surface of triangles. -/
def solid (pts : List (V3 ℝ)) (facets : List (List Int)) : Set (V3 ℝ) :=
  {x | ∀ i j k, [i, j, k] ∈ facets → vol6 (posOf pts i) (posOf pts j) (posOf pts k) x ≤ 0}

/-- The cylinder around the axis through `c` in the direction z. -/
def cylinder (c : V3 ℝ) (radius length : ℝ) : Set (V3 ℝ) :=
  {x | (x.x - c.x) ^ 2 + (x.y - c.y) ^ 2 ≤ radius ^ 2 ∧ |x.z - c.z| ≤ length / 2}

/-- The ball around `c`. -/
def ball (c : V3 ℝ) (radius : ℝ) : Set (V3 ℝ) := {x | (x.x - c.x) ^ 2 + (x.y - c.y) ^ 2 + (x.z - c.z) ^ 2 ≤ radius ^ 2}

end Verif.Canned
