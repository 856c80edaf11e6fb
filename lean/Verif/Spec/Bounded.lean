import Verif.Spec.Mesh
import Verif.Spec.Readout
import Verif.Spec.Query
import Mathlib.Algebra.Order.Floor.Ring
/- Vocabulary for meshes inside a boundary. The grid has the origin `(x, y)` and the spacing `u`; grid points have integer coordinates from -1073741824 on. -/
namespace Verif.Driver
open Verif Verif.Mesh Verif.Geom Verif.Readout

/-- The grid point at or below, left of or at `p`. -/
noncomputable def gridIx (x y u : ℝ) (p : V2 ℝ) : Int × Int := (-1073741824 + ⌊(p.x - x) / u⌋, -1073741824 + ⌊(p.y - y) / u⌋)

/-- The place of a grid point. -/
noncomputable def gridSpot (x y u : ℝ) (k : Int × Int) : V2 ℝ := ⟨x + (k.1 + 1073741824) * u, y + (k.2 + 1073741824) * u⟩

/-- The sides of a closed polygon whose first vertex is repeated at the end. -/
def ringSides (r : List (Int × Int)) : List ((Int × Int) × (Int × Int)) := r.zip r.tail

/-- The sides after `f` has moved the vertices, without those that have become points. -/
def moved (f : Int × Int → Int × Int) (r : List (Int × Int)) : List ((Int × Int) × (Int × Int)) := proper ((ringSides r).map fun t => (f t.1, f t.2))

/-- `f` moves every vertex to a vertex that is at most 2 away in each coordinate. -/
def Merges (f : Int × Int → Int × Int) (rings : List (List (Int × Int))) : Prop := ∀ r ∈ rings, ∀ p ∈ r, Within2 p (f p) ∧ ∃ r' ∈ rings, f p ∈ r'

/-- Polygons that fit together as the cells of a mesh. -/
structure GoodRings (rings : List (List (Int × Int))) : Prop where
  /-- A polygon has at least three corners, and its first vertex is repeated at the end. -/
  closed : ∀ r ∈ rings, 3 < r.length ∧ r.head? = r.getLast?
  /-- The vertices are grid points. -/
  grid : ∀ r ∈ rings, ∀ p ∈ r, (-1073741824 ≤ p.1 ∧ p.1 ≤ 1073741823) ∧ -1073741824 ≤ p.2 ∧ p.2 ≤ 1073741823
  /-- It is clear which vertices are the same: being within 2 is transitive among them. -/
  clear : ∀ r ∈ rings, ∀ p ∈ r, ∀ r1 ∈ rings, ∀ p1 ∈ r1, ∀ r2 ∈ rings, ∀ p2 ∈ r2, Within2 p p1 → Within2 p p2 → Within2 p1 p2
  /-- However vertices are merged, no two cells are on the same side of an edge. -/
  once : ∀ f, Merges f rings → (rings.flatMap (moved f)).Nodup
  /-- However vertices are merged, there is an edge on the outside. -/
  outer : ∀ f, Merges f rings → ∃ t ∈ rings.flatMap (moved f), (t.2, t.1) ∉ rings.flatMap (moved f)

/-- After merging, `p` is an end of an edge on the outside. -/
def Outer (f : Int × Int → Int × Int) (rings : List (List (Int × Int))) (p : Int × Int) : Prop := ∃ t ∈ rings.flatMap (moved f), (t.2, t.1) ∉ rings.flatMap (moved f) ∧ (p = t.1 ∨ p = t.2)

/-- The outer vertices `out`, at the places `spot`, fit a PLC: every PLC point has an outer vertex within the tolerance, no outer vertex is within the tolerance of two PLC points or exactly at the
tolerance from one, and all are closer to the PLC than the tolerance (and rounding for segments shorter than 1e-10). -/
structure FitsPLC (tol : ℝ) (spot : Int × Int → V2 ℝ) (out : Int × Int → Prop) (verts : List ℝ) (plc : Mesh.PLC) : Prop where
  corner : ∀ v < verts.length / 2, ∃ p, out p ∧ dist2 (spot p) (vtx verts (v : Int)) < tol
  apart : ∀ p, out p → ∀ v < verts.length / 2, ∀ w < verts.length / 2, dist2 (spot p) (vtx verts (v : Int)) < tol → dist2 (spot p) (vtx verts (w : Int)) < tol → v = w
  tie : ∀ p, out p → ∀ v < verts.length / 2, dist2 (spot p) (vtx verts (v : Int)) ≠ tol
  close : ∀ p, out p → ∃ q, OnPLC verts plc q ∧ dist2 (spot p) q + 1 / 2 * (1 / 10 ^ 10) < tol

/-- A face of a cell, in the direction in which the cell has it. -/
def turned (m : Tess ℝ) (s : Int) : List Nat := if 0 ≤ s then face m (posID s) else (face m (posID s)).reverse
end Verif.Driver
