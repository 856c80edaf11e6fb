import Verif.Spec.Mesh
import Verif.Spec.Triangle
import Mathlib.Algebra.Order.Floor.Ring
/- What a Voronoi mesh is. -/
namespace Verif.Tri
open Verif Verif.Mesh Verif.Geom

/-- `Y` is in the triangle with the corners `P`, `A`, `B`, sides included. -/
def InTri (P A B Y : V2 ℝ) : Prop := ∃ a b : ℝ, 0 ≤ a ∧ 0 ≤ b ∧ a + b ≤ 1 ∧ Y.x = P.x + a * (A.x - P.x) + b * (B.x - P.x) ∧ Y.y = P.y + a * (A.y - P.y) + b * (B.y - P.y)

/-- No point of `S` is nearer to `Y` than `P`. -/
def Nearest (S : List (V2 ℝ)) (P Y : V2 ℝ) : Prop := ∀ Q ∈ S, sq2 Y P ≤ sq2 Y Q

/-- Two places that differ by less than `tol` in both coordinates. -/
def Near (tol : ℝ) (A B : V2 ℝ) : Prop := |A.x - B.x| < tol ∧ |A.y - B.y| < tol

/-- Mesh `m` has the Voronoi cells of the first `n` of the points `S`, up to `tol`: `V k` is the exact place of node `k`. -/
structure VoronoiMesh (S : List (V2 ℝ)) (n : Nat) (tol : ℝ) (V : Nat → V2 ℝ) (m : Tess ℝ) : Prop where
  /-- One cell per point. -/
  cells_len : m.cells.length = n
  /-- The nodes are near their exact places. -/
  near : ∀ k, k < numNodes 2 m → ∃ N : V2 ℝ, node 2 m k = [N.x, N.y] ∧ Near tol N (V k)
  /-- The exact place of a node has three different points of `S` as nearest points, one of them among the first `n`. -/
  vertex : ∀ k, k < numNodes 2 m → ∃ A B C, A ∈ S.take n ∧ B ∈ S ∧ C ∈ S ∧ A ≠ B ∧ B ≠ C ∧ A ≠ C ∧ Nearest S A (V k) ∧ Nearest S B (V k) ∧ Nearest S C (V k)
  /-- The sides of a cell form one closed loop of different nodes: they are the pairs of neighbours in a list `us`, each face turned round if its sign is negative. -/
  loop : ∀ p, p < n → ∃ us : List Nat, 3 ≤ us.length ∧ us.Nodup ∧ (cell m p).map (fun s => if 0 ≤ s then face m (posID s) else (face m (posID s)).reverse) = (loopSides us).map fun x => [x.1, x.2]
  /-- The places to which no point of `S` is nearer than point `p` are exactly those in the triangles between `p` and the exact sides of its cell. -/
  region : ∀ p, p < n → ∃ P, S[p]? = some P ∧ ∀ Y, Nearest S P Y ↔ ∃ s ∈ cell m p, ∃ a b, face m (posID s) = [a, b] ∧ InTri P (V a) (V b) Y

/-- The point of the grid with origin `(x, y)` and spacing `u` at or below, left of or at `p`. -/
noncomputable def gridPoint (x y u : ℝ) (p : ℝ × ℝ) : V2 ℝ := ⟨x + u * ⌊(p.1 - x) / u⌋, y + u * ⌊(p.2 - y) / u⌋⟩

/-- Twelve points on the sides of the square of `2147483647` grid steps, three on each: at the lower end, near the middle and one step from the upper end. -/
def frame (x y u : ℝ) : List (V2 ℝ) := ([0, 1073741823, 2147483646] : List ℝ).flatMap fun k => [⟨x + u * k, y⟩, ⟨x + u * k, y + u * 2147483647⟩, ⟨x, y + u * k⟩, ⟨x + u * 2147483647, y + u * k⟩]

/-- The points that are tessellated: the given ones, rounded to the grid, and the frame. -/
noncomputable def framedSites (x y u : ℝ) (points : List (ℝ × ℝ)) : List (V2 ℝ) := points.map (gridPoint x y u) ++ frame x y u
end Verif.Tri
