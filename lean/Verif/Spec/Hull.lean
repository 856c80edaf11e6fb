import Verif.Spec.Convex
import Mathlib.Algebra.Order.Floor.Ring
import Mathlib.Algebra.Order.Archimedean.Real.Basic
/- Positions on a grid. -/
namespace Verif.Geom
open Verif Verif.Mesh

/-- The grid cell of a position: the nearest point of the grid with origin `low` and spacing `dx`, counted from the origin. -/
noncomputable def cell (low : V2 ℝ) (dx : ℝ) (p : V2 ℝ) : V2 Int := ⟨⌊(p.x - low.x) / dx + 1 / 2⌋, ⌊(p.y - low.y) / dx + 1 / 2⌋⟩

/-- The position of that grid point. -/
noncomputable def snapped (low : V2 ℝ) (dx : ℝ) (p : V2 ℝ) : V2 ℝ := ⟨low.x + dx * ((cell low dx p).x : ℝ), low.y + dx * ((cell low dx p).y : ℝ)⟩

/-- The points are to the right of and above `low` and their grid cells fit into 32 bits. -/
def FitsGrid (low : V2 ℝ) (dx : ℝ) (pts : List (V2 ℝ)) : Prop :=
  ∀ p ∈ pts, low.x ≤ p.x ∧ low.y ≤ p.y ∧ (cell low dx p).x ≤ 2147483647 ∧ (cell low dx p).y ≤ 2147483647

/-- The coordinates of different cells differ by more than one. -/
def Spread (low : V2 ℝ) (dx : ℝ) (pts : List (V2 ℝ)) : Prop :=
  ∀ p ∈ pts, ∀ q ∈ pts, ((cell low dx p).x = (cell low dx q).x ∨ 1 < |(cell low dx p).x - (cell low dx q).x|) ∧
    ((cell low dx p).y = (cell low dx q).y ∨ 1 < |(cell low dx p).y - (cell low dx q).y|)

/-- The input is not treated as a point, a pair or a line: after the points that coincide with the first within `dx` there is one, not the last, that does not, and with these
two some later point is not collinear according to the library's test. -/
def TwoDim (dx : ℝ) (pts : List (V2 ℝ)) : Prop :=
  ∃ p0 near pj rest, pts = p0 :: (near ++ pj :: rest) ∧ rest ≠ [] ∧ (∀ p ∈ near, dist2 p0 p < dx) ∧ dx ≤ dist2 p0 pj ∧ ∃ p ∈ pts.drop 2, ¬ collinear2 p0 pj p dx

/-- The grid positions are not all on one line. -/
def SnappedTwoDim (low : V2 ℝ) (dx : ℝ) (pts : List (V2 ℝ)) : Prop :=
  ∃ a ∈ pts, ∃ b ∈ pts, ∃ c ∈ pts, area2 (snapped low dx a) (snapped low dx b) (snapped low dx c) ≠ 0

/-- Lexicographic order of positions. -/
def lexLt (a b : V2 Int) : Prop := a.x < b.x ∨ (a.x = b.x ∧ a.y < b.y)
def lexLe (a b : V2 Int) : Prop := a.x < b.x ∨ (a.x = b.x ∧ a.y ≤ b.y)

/-- The facets of a closed loop of vertices. -/
def loopPLC (ids : List Nat) : PLC := ⟨(dirSides ids).map fun e => [(e.1 : Int), (e.2 : Int)], []⟩
end Verif.Geom
