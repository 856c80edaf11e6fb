import Verif.Spec.Geom
import Verif.Spec.Hash
import Verif.Model.Hash
import Verif.Model.PLC
import Mathlib.Analysis.Convex.Hull
import Mathlib.Data.Real.Sqrt
/- Convex hulls of points of space. -/
namespace Verif.Hull3
open Verif Verif.Geom

/-- The coordinates of a point, as a point of Mathlib's space. -/
def coords (p : V3 ℝ) : ℝ × ℝ × ℝ := (p.x, p.y, p.z)

/-- The position of point number `i`. -/
noncomputable def posOf (pts : List (V3 ℝ)) (i : Int) : V3 ℝ := pts.getD i.toNat 0

/-- `facets` is the boundary of the convex hull of the points: triangles of points, seen counter-clockwise from outside. -/
structure IsHull3 (pts : List (V3 ℝ)) (facets : List (List Int)) : Prop where
  /-- a facet has three corners, which are numbers of points -/
  corners : ∀ f ∈ facets, ∃ i j k : Nat, f = [(i : Int), (j : Int), (k : Int)] ∧ i < pts.length ∧ j < pts.length ∧ k < pts.length
  /-- no two facets have a directed side in common -/
  once : (facets.flatMap dirSides).Nodup
  /-- each side is, in the other direction, a side of another facet: the surface has no gap -/
  closed : ∀ u v, (u, v) ∈ facets.flatMap dirSides → (v, u) ∈ facets.flatMap dirSides
  /-- no facet is flat, and some point is strictly behind it -/
  proper : ∀ i j k, [i, j, k] ∈ facets → ∃ p ∈ pts, vol6 (posOf pts i) (posOf pts j) (posOf pts k) p < 0
  /-- the positions that are on or behind all the facets are the convex hull -/
  hull : coords '' {x | ∀ i j k, [i, j, k] ∈ facets → vol6 (posOf pts i) (posOf pts j) (posOf pts k) x ≤ 0} = convexHull ℝ {x | ∃ p ∈ pts, x = coords p}
  /-- the corners of the facets alone have the same convex hull: no corner is missing -/
  used : convexHull ℝ {x | ∃ f ∈ facets, ∃ i ∈ f, x = coords (posOf pts i)} = convexHull ℝ {x | ∃ p ∈ pts, x = coords p}

/-- The length of a vector. -/
noncomputable def len3 (a : V3 ℝ) : ℝ := Real.sqrt (dot3 a a)

/-- Each point is in the plane of any three others or at least `d` away from it. (The distance from the plane is the quotient of six times the volume of the tetrahedron and twice the area of the
triangle. Triangles smaller than `1e-100` count as that large.) -/
def Separated (d : ℝ) (pts : List (V3 ℝ)) : Prop :=
  ∀ a ∈ pts, ∀ b ∈ pts, ∀ c ∈ pts, ∀ p ∈ pts, vol6 a b c p = 0 ∨ d * max (1 / 10 ^ 100) (len3 (cross3 (b - a) (c - a))) ≤ |vol6 a b c p|

/-- The points are not in one plane. -/
def NotFlat (pts : List (V3 ℝ)) : Prop := ∃ a ∈ pts, ∃ b ∈ pts, ∃ c ∈ pts, ∃ d ∈ pts, vol6 a b c d ≠ 0

/-- The coordinates are between the smallest and the largest number. -/
def InRange3 (big : ℝ) (pts : List (V3 ℝ)) : Prop := ∀ p ∈ pts, |p.x| ≤ big ∧ |p.y| ≤ big ∧ |p.z| ≤ big

/-- The smallest box around the points. -/
structure IsBox3 (pts : List (V3 ℝ)) (b : Hash.HBox3) : Prop where
  inside : ∀ p ∈ pts, Hash.inBox3 b p
  low : (∃ p ∈ pts, p.x = b.lo.x) ∧ (∃ p ∈ pts, p.y = b.lo.y) ∧ ∃ p ∈ pts, p.z = b.lo.z
  high : (∃ p ∈ pts, p.x = b.hi.x) ∧ (∃ p ∈ pts, p.y = b.hi.y) ∧ ∃ p ∈ pts, p.z = b.hi.z

/-- The hash of a position in the box with wrapping arithmetic: the quantization cells in x and y, and what the platform makes of the one in z. -/
noncomputable def hashOf (big : Points.Key → Nat → Points.Key) (eps tol : ℝ) (b : Hash.HBox3) (p : V3 ℝ) : Points.Key :=
  BitVec.ofNat 32 (Hash.cellIx Hash.max3 eps tol b.lo.x b.hi.x p.x).toNat + (BitVec.ofNat 32 (Hash.cellIx Hash.max3 eps tol b.lo.y b.hi.y p.y).toNat <<< 21) +
    big (BitVec.ofNat 32 (Hash.cellIx Hash.max3 eps tol b.lo.z b.hi.z p.z).toNat) 42
end Verif.Hull3
