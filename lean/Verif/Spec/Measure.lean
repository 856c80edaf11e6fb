import Verif.Model.Vec
import Verif.Spec.Geom
import Verif.Spec.Editor
import Verif.Spec.PLC
/-
Areas, volumes and centroids of cells, stated from the mesh alone: triangles (tetrahedra) over a reference point. Nothing here refers to how the library computes them.
-/
namespace Verif.Geom
open Verif Verif.Mesh Verif.Editor
section
variable {K : Type} [Field K]

/-- Position of a node. -/
def pos2 (m : Tess K) (n : Nat) : V2 K := ⟨m.nodes.getD (2 * n) 0, m.nodes.getD (2 * n + 1) 0⟩
def pos3 (m : Tess K) (n : Nat) : V3 K := ⟨m.nodes.getD (3 * n) 0, m.nodes.getD (3 * n + 1) 0, m.nodes.getD (3 * n + 2) 0⟩

/-- Twice the area of the cell `C` as the sum of the signed triangles from `o` to its sides. -/
def fanArea2 (m : Tess K) (o : V2 K) (C : List Int) : K := (C.map fun s => area2 o (pos2 m (tail m s)) (pos2 m (head m s))).sum

/-- The `x`-moment, six times: the sum over those triangles of (twice the area) times (three times the centroid). -/
def fanMomentX (m : Tess K) (o : V2 K) (C : List Int) : K :=
  (C.map fun s => area2 o (pos2 m (tail m s)) (pos2 m (head m s)) * (o.x + (pos2 m (tail m s)).x + (pos2 m (head m s)).x)).sum
/-- The `y`-moment, six times. -/
def fanMomentY (m : Tess K) (o : V2 K) (C : List Int) : K :=
  (C.map fun s => area2 o (pos2 m (tail m s)) (pos2 m (head m s)) * (o.y + (pos2 m (tail m s)).y + (pos2 m (head m s)).y)).sum

/-- `m'` is `m` moved by `v`: same topology, every node position shifted. -/
structure Moved2 (v : V2 K) (m m' : Tess K) : Prop where
  cells : m'.cells = m.cells
  faces : m'.faces = m.faces
  len : m'.nodes.length = m.nodes.length
  pos : ∀ n, n < numNodes 2 m → pos2 m' n = pos2 m n + v

/-- Interior faces are used in opposite directions by their two cells. -/
def Opposed {R : Type} (m : Tess R) : Prop := ∀ X ∈ m.faceCells, X.length = 2 → ∃ s t, (X = [s, t] ∨ X = [t, s]) ∧ 0 ≤ s ∧ t < 0

/-- The signed faces on the boundary, in the direction their only cell uses them. -/
def boundarySides {R : Type} (m : Tess R) : List Int :=
  (List.range m.faces.length).flatMap fun f =>
    match cellsOf m f with
    | [s] => [if 0 ≤ s then (f : Int) else flip f]
    | _ => []

/-- `m'` is `m` moved by `v` (3D). -/
structure Moved3 (v : V3 K) (m m' : Tess K) : Prop where
  cells : m'.cells = m.cells
  faces : m'.faces = m.faces
  len : m'.nodes.length = m.nodes.length
  pos : ∀ n, n < numNodes 3 m → pos3 m' n = pos3 m n + v

/-- A closed cell in 3D: every directed side of its oriented faces is matched by a reversed one. -/
def ClosedCell {R : Type} (m : Tess R) (C : List Int) : Prop :=
  (C.flatMap fun s => dirSides (orientedNodes m s)).Perm ((C.flatMap fun s => dirSides (orientedNodes m s)).map Prod.swap)

/-- The average of the nodes of a face. -/
def mean3 (m : Tess K) (F : List Nat) : V3 K :=
  ⟨(F.map fun n => (pos3 m n).x).sum / F.length, (F.map fun n => (pos3 m n).y).sum / F.length, (F.map fun n => (pos3 m n).z).sum / F.length⟩

/-- Six times the volume of a cell: the sum of the signed tetrahedra from `o` to the triangles of its faces, each face being cut into triangles around the average of its nodes. -/
def fanVolume6 (m : Tess K) (o : V3 K) (C : List Int) : K :=
  (C.map fun s => ((dirSides (orientedNodes m s)).map fun e => vol6 o (pos3 m e.1) (pos3 m e.2) (mean3 m (face m (posID s)))).sum).sum

/-- The moment of one coordinate: the sum of those tetrahedra, each times the coordinate of its centroid. -/
def fanMoment6 (π : V3 K → K) (m : Tess K) (o : V3 K) (C : List Int) : K :=
  (C.map fun s => ((dirSides (orientedNodes m s)).map fun e => vol6 o (pos3 m e.1) (pos3 m e.2) (mean3 m (face m (posID s))) *
    ((π o + π (pos3 m e.1) + π (pos3 m e.2) + π (mean3 m (face m (posID s)))) / 4)).sum).sum
end

/-- A face whose first two nodes and some later node are not collinear according to the library's test with tolerance 1e-10. -/
def ProperFace (m : Tess ℝ) (F : List Nat) : Prop :=
  ∃ a b r, F = a :: b :: r ∧ ∃ n ∈ r, ¬ collinear3 (pos3 m a) (pos3 m b) (pos3 m n) (1 / 10 ^ 10)
end Verif.Geom
