import Verif.Model.Ray
import Verif.Model.Internal
/-
Model of `constructCells1d`: `/repo/src/polytope_tessellator_utilities.hh` L305-423. Reals are exact. Both output vectors are empty on entry.
-/
namespace Verif.Cells1d
open Verif Verif.Geom Verif.Mesh

/-- `RealPoint` with its index. -/
abbrev IP := V2 ℝ × Nat

/-- `unitVector<2>` (`polytope_geometric_utilities.hh` L328-336). -/
noncomputable def unitVector2 (a : V2 ℝ) : V2 ℝ := a.div (max (1 / 10 ^ 100) (Real.sqrt (dot2 a a)))

/-- `Point2::operator<` (`Point.hh` L28-32) on positions. -/
def before (a b : V2 ℝ) : Prop := a.x < b.x ∨ (a.x = b.x ∧ a.y < b.y)

/-- A possible result of the `sort` L322: the generators with their numbers, in an order in which none comes before an earlier one. -/
def IsSort (gens : List (V2 ℝ)) (ps : List IP) : Prop := ps.Perm gens.zipIdx ∧ ps.Pairwise fun a b => ¬ before b.1 a.1

/-- `cellNodes[i].push_back(v)`. -/
def pushAt (cells : List (List Nat)) (i v : Nat) : Res (List (List Nat)) := do
  let c ← rd cells i
  wr cells i (c ++ [v])

/-- The unit vector from `p1` to `p2` (L339-340). -/
noncomputable def direction (p1 p2 : V2 ℝ) : V2 ℝ := unitVector2 (p2 - p1)

/-- The vector to the right of `r` (L341). -/
def right (r : V2 ℝ) : V2 ℝ := ⟨r.y, -r.x⟩

/-- `tol` (L314). -/
noncomputable def tol : ℝ := 1 / 10 ^ 10

/-- The two ends of the face between `p1` and `p2` (L336-341, L349-357; L372-389). -/
noncomputable def faceEnds (dbg : Bool) (c : V2 ℝ) (radius : ℝ) (p1 p2 : V2 ℝ) : Res (V2 ℝ × V2 ℝ) := do
  let midpt := V2.scale (1 / 2) (p1 + p2)
  let r2 := right (direction p1 p2)
  let a ← rayCircle dbg midpt r2 c radius tol
  let b ← rayCircle dbg midpt (V2.scale (-1) r2) c radius tol
  return (a, b)

/-- The node lists of the cells and the nodes. -/
abbrev Out := List (List Nat) × List (V2 ℝ)

/-- Cell 0 (L330-366). -/
noncomputable def firstCell (dbg : Bool) (c : V2 ℝ) (radius : ℝ) (ps : List IP) (s : Out) : Res Out := do
  let q1 ← rd ps 0
  let q2 ← rd ps 1
  let r1 := V2.scale (-1) (direction q1.1 q2.1)
  let node ← rayCircle dbg q1.1 r1 c radius tol
  let nodes ← wr s.2 0 node
  let f ← faceEnds dbg c radius q1.1 q2.1
  let nodes ← wr nodes 1 f.1
  let nodes ← wr nodes 2 f.2
  let cells ← pushAt s.1 q1.2 0
  let cells ← pushAt cells q1.2 1
  let cells ← pushAt cells q1.2 2
  let cells ← pushAt cells q2.2 2
  let cells ← pushAt cells q2.2 1
  return (cells, nodes)

/-- One turn of the loop over the interior cells (L370-399). -/
noncomputable def midCell (dbg : Bool) (c : V2 ℝ) (radius : ℝ) (ps : List IP) (s : Out) (i : Nat) : Res Out := do
  let inode := 2 * i + 1
  let q1 ← rd ps i
  let q2 ← rd ps (i + 1)
  let f ← faceEnds dbg c radius q1.1 q2.1
  let nodes ← wr s.2 inode f.1
  let nodes ← wr nodes (inode + 1) f.2
  let cells ← pushAt s.1 q1.2 inode
  let cells ← pushAt cells q1.2 (inode + 1)
  let cells ← pushAt cells q2.2 (inode + 1)
  let cells ← pushAt cells q2.2 inode
  return (cells, nodes)

/-- The last cell (L403-418). -/
noncomputable def lastCell (dbg : Bool) (c : V2 ℝ) (radius : ℝ) (ps : List IP) (n : Nat) (s : Out) : Res Out := do
  let q1 ← rd ps (n - 1)
  let q2 ← rd ps (n - 2)
  let node ← rayCircle dbg q1.1 (direction q2.1 q1.1) c radius tol
  let nodes ← wr s.2 (2 * n - 1) node
  let cells ← pushAt s.1 q1.2 (2 * n - 1)
  return (cells, nodes)

/-- `constructCells1d` (L305-423) after the sort. With fewer than two generators the reads L331-332 are out of bounds, before the loop bound and `numGenerators-2` matter. -/
noncomputable def constructCells1d (dbg : Bool) (c : V2 ℝ) (radius : ℝ) (ps : List IP) : Res Out := do
  let n := ps.length
  let s ← firstCell dbg c radius ps (List.replicate n [], List.replicate (2 * n) 0)
  let s ← (List.range' 1 (n - 2)).foldlM (midCell dbg c radius ps) s
  let s ← lastCell dbg c radius ps n s
  Res.assert dbg (s.2.length = 2 * n)
  Res.assert dbg (s.1.length = n)
  return s
end Verif.Cells1d
