import Verif.Spec.Geom
import Mathlib.Data.List.Rotate
/-
What it means to simplify the facets of a 3D PLC. A facet is a list of positions in a list of points; its corners are the points at these positions. The corners of a facet make a
closed polygon.
-/
namespace Verif.Simplify3
open Verif Verif.Geom

section
variable {K : Type} [Field K]

/-- The corners of a facet. -/
def corners (points : List (V3 K)) (f : List Int) : List (V3 K) := f.map fun k => points.getD k.toNat 0

/-- Twice the area of a closed polygon as seen along `u`, times the length of `u`: positive if the polygon runs counterclockwise for one that `u` points at. The polygon need not be flat.
The values for all `u` are the vector area. -/
def areaAlong (u : V3 K) (l : List (V3 K)) : K := ((dirSides l).map fun s => dot3 u (cross3 s.1 s.2)).sum

/-- Six times the volume inside a closed surface of flat polygons: each makes a pyramid with the origin. -/
def volume6 (ls : List (List (V3 K))) : K := (ls.map fun l => areaAlong (l.headD 0) l).sum

/-- The normal at the first corners of a polygon. -/
def firstNormal (l : List (V3 K)) : V3 K := cross3 (l.getD 1 0 - l.getD 0 0) (l.getD 2 0 - l.getD 0 0)

/-- Vectors point in the same direction. -/
def SameDir [LinearOrder K] (m n : V3 K) : Prop := cross3 m n = 0 ∧ 0 < dot3 m n

/-- A flat convex polygon, whose first three corners are not on one line. -/
structure Proper [LinearOrder K] (l : List (V3 K)) : Prop where
  three : 3 ≤ l.length
  bent : firstNormal l ≠ 0
  flat : ∀ p ∈ l, dot3 (firstNormal l) p = dot3 (firstNormal l) (l.headD 0)
  convex : ∀ a b c, [a, b, c].Sublist l → 0 ≤ dot3 (firstNormal l) (cross3 (b - a) (c - a))
end

/-- How many sides of the polygons join `p` and `q`, in either direction. -/
def joins {P : Type} [DecidableEq P] (L : List (List P)) (p q : P) : Nat := (L.flatMap dirSides).count (p, q) + (L.flatMap dirSides).count (q, p)

/-- `w` runs along the outline of the polygons: once, in some direction, along each side that belongs to one of them only, and along no other. -/
def Outline {P : Type} [DecidableEq P] (L : List (List P)) (w : List P) : Prop := ∀ p q, joins [w] p q = if joins L p q = 1 then 1 else 0

/-- The corners of a closed polygon at which it turns. -/
def turns {K : Type} [Field K] [DecidableEq K] (w : List (V3 K)) : List (V3 K) :=
  (w.zip ((w.rotate 1).zip (w.rotate 2))).filterMap fun x => if cross3 (x.2.1 - x.1) (x.2.2 - x.2.1) ≠ 0 then some x.2.1 else none

/-- One new polygon takes the place of old ones, whose outline is `w`. -/
structure Replaces {K : Type} [Field K] [LinearOrder K] (old : List (List (V3 K))) (w new : List (V3 K)) : Prop where
  some : old ≠ []
  /-- the old ones lie in one plane and face in one direction -/
  plane : ∀ l ∈ old, ∀ l' ∈ old, SameDir (firstNormal l) (firstNormal l') ∧ ∀ p ∈ l, dot3 (firstNormal l') p = dot3 (firstNormal l') (l'.headD 0)
  outline : Outline old w
  /-- the new one has the corners at which the outline turns -/
  three : 3 ≤ new.length
  corners : new = turns w ∨ new = (turns w).reverse
  /-- the vector area is the same up to the sign, if the outline comes by no point twice -/
  signed : w.Nodup → (∀ u, areaAlong u new = (old.map (areaAlong u)).sum) ∨ ∀ u, areaAlong u new = - (old.map (areaAlong u)).sum
  /-- and with the sign, if the outline is convex too -/
  area : w.Nodup → Proper (turns w) → ∀ u, areaAlong u new = (old.map (areaAlong u)).sum

/-- The polygons are large enough for the tolerance. -/
structure Large (tol : ℝ) (L : List (List (V3 ℝ))) : Prop where
  /-- different corners of a polygon are at a distance of the tolerance and of its root, at least -/
  apart : ∀ l ∈ L, ∀ p ∈ l, ∀ q ∈ l, p ≠ q → tol ^ 2 ≤ sq3 p q ∧ tol ≤ sq3 p q
  /-- corners of a polygon are on one line or make an angle at the first, the square of whose sine is twice the tolerance, at least -/
  bent : ∀ l ∈ L, ∀ p ∈ l, ∀ q ∈ l, ∀ r ∈ l, cross3 (q - p) (r - p) ≠ 0 →
    2 * tol * (dot3 (q - p) (q - p) * dot3 (r - p) (r - p)) ≤ dot3 (cross3 (q - p) (r - p)) (cross3 (q - p) (r - p))

/-- The polygons are large and their angles sharp enough for the tolerance. -/
structure Resolved3 (tol : ℝ) (L : List (List (V3 ℝ))) : Prop extends Large tol L where
  /-- normals point in the same direction or make an angle whose cosine falls short of one by the tolerance over their lengths, at least -/
  tilted : ∀ l ∈ L, ∀ l' ∈ L, cross3 (firstNormal l) (firstNormal l') ≠ 0 ∨ dot3 (firstNormal l) (firstNormal l') < 0 →
    tol ≤ Real.sqrt (dot3 (firstNormal l) (firstNormal l)) * Real.sqrt (dot3 (firstNormal l') (firstNormal l')) - dot3 (firstNormal l) (firstNormal l')
  /-- so do sides that meet -/
  turned : ∀ p q r, joins L p q ≠ 0 → joins L q r ≠ 0 → cross3 (q - p) (r - q) ≠ 0 →
    tol < Real.sqrt (dot3 (q - p) (q - p)) * Real.sqrt (dot3 (r - q) (r - q)) - |dot3 (q - p) (r - q)|

/-- A closed surface: every side belongs to two polygons. -/
structure ClosedSurface {P : Type} [DecidableEq P] (L : List (List P)) : Prop where
  ends : ∀ l ∈ L, ∀ s ∈ dirSides l, s.1 ≠ s.2
  two : ∀ p q, joins L p q = 0 ∨ joins L p q = 2

/-- A closed surface of convex facets, each directed side of one of them only, that are large and whose angles are sharp enough for the tolerance. -/
structure Good3 (tol : ℝ) (facets : List (List Int)) (points : List (V3 ℝ)) : Prop where
  inside : ∀ f ∈ facets, ∀ k ∈ f, 0 ≤ k ∧ k < points.length
  proper : ∀ f ∈ facets, Proper (corners points f)
  resolved : Resolved3 tol (facets.map (corners points))
  sides : ((facets.map (corners points)).flatMap dirSides).Nodup
  closed : ClosedSurface (facets.map (corners points))

/-- The polygons of a surface in groups, each with its outline. -/
structure Flats {K : Type} [Field K] [LinearOrder K] (L : List (List (V3 K))) (groups : List (List Nat × List (V3 K))) : Prop where
  four : 4 ≤ groups.length
  /-- every polygon is in one group -/
  parts : (groups.map Prod.fst).flatten.Perm (List.range L.length)
  /-- of a group the polygon that comes first in the list is named first; each of them faces in the same direction and shares a corner with it -/
  first : ∀ G ∈ groups, ∃ i, G.1.head? = some i ∧ ∀ o ∈ G.1, i ≤ o ∧ SameDir (firstNormal (L.getD i [])) (firstNormal (L.getD o [])) ∧ ∃ p ∈ L.getD i [], p ∈ L.getD o []
  /-- the groups are in the order of their first polygons -/
  order : groups.Pairwise fun G H => G.1.headD 0 < H.1.headD 0
  /-- polygons of different groups that share a corner face in different directions -/
  apart : groups.Pairwise fun G H => ∀ i ∈ G.1, ∀ o ∈ H.1, (∃ p ∈ L.getD i [], p ∈ L.getD o []) → ¬ SameDir (firstNormal (L.getD i [])) (firstNormal (L.getD o []))
  /-- the outline of a group comes by no point twice and is convex, wherever one starts on it and in whichever direction one goes -/
  outline : ∀ G ∈ groups, Outline (G.1.map fun i => L.getD i []) G.2 ∧ G.2.Nodup ∧ ∀ w, w.IsRotated G.2 ∨ w.IsRotated G.2.reverse → Proper (turns w)
end Verif.Simplify3
