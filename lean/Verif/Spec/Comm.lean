import Verif.Spec.Parallel
import Mathlib.Order.Defs.LinearOrder
/-
The halo mesh of a process, and what its own part of it is. Nothing here refers to how the library computes anything.
-/
namespace Verif.Exch
open Verif Verif.Mesh
variable {R κ : Type}

/-- The cells of process `q`, where `g2d` says to which process each cell belongs. -/
def cellsBy (g2d : List Nat) (q : Nat) : List Nat := (List.range g2d.length).filter fun c => g2d[c]? = some q

/-- A consistent mesh without communication data yet, whose cells belong to process `rank` (the first `nlocal`) and its neighbours. -/
structure Halo (D rank nlocal : Nat) (g2d : List Nat) (m : Tess R) : Prop where
  consistent : Consistent D m
  faces_ne : ∀ F ∈ m.faces, F ≠ []
  sn : m.sharedNodes = []
  sf : m.sharedFaces = []
  nodup : m.neighborDomains.Nodup
  self : rank ∉ m.neighborDomains
  cells : m.cells.length = g2d.length
  le : nlocal ≤ g2d.length
  own : ∀ (c q : Nat), g2d[c]? = some q → (c < nlocal ↔ q = rank)
  nbr : ∀ q ∈ g2d, q = rank ∨ q ∈ m.neighborDomains

/-- `srt` sorts by the first component. Nothing is said about the order of pairs with equal first components. -/
def Sorts [LinearOrder κ] (srt : List (κ × Nat) → List (κ × Nat)) : Prop :=
  ∀ l, (srt l).Perm l ∧ (srt l).Pairwise fun a b => a.1 ≤ b.1

/-- `m'` is the part of the halo mesh `m` that belongs to process `rank`, and says with whom it shares what: the neighbours kept are those with which nodes are
shared, the shared nodes (faces) are those of cells of both processes, each once, ordered by the key of their position. -/
structure LocalPart [LinearOrder κ] (D rank : Nat) (g2d : List Nat) (key : List R → κ) (fk : List (List R) → κ) (m m' : Tess R) : Prop where
  part : Restricts D m (Par.nodesOf D m (cellsBy g2d rank)) (Par.facesOf m (cellsBy g2d rank)) (cellsBy g2d rank)
    { m' with neighborDomains := m.neighborDomains, sharedNodes := [], sharedFaces := [] }
  nbrs : m'.neighborDomains = m.neighborDomains.filter fun q => decide (Par.nodesBetween D m (cellsBy g2d rank) (cellsBy g2d q) ≠ [])
  lenN : m'.sharedNodes.length = m'.neighborDomains.length
  lenF : m'.sharedFaces.length = m'.neighborDomains.length
  nodes_lt : ∀ l ∈ m'.sharedNodes, ∀ a ∈ l, a < numNodes D m'
  faces_lt : ∀ l ∈ m'.sharedFaces, ∀ a ∈ l, a < m'.faces.length
  nodes : ∀ i q, m'.neighborDomains[i]? = some q →
    ((m'.sharedNodes.getD i []).map (old (Par.nodesOf D m (cellsBy g2d rank)))).Perm (Par.nodesBetween D m (cellsBy g2d rank) (cellsBy g2d q)) ∧
    (m'.sharedNodes.getD i []).Pairwise fun a b => key (node D m' a) ≤ key (node D m' b)
  faces : ∀ i q, m'.neighborDomains[i]? = some q →
    ((m'.sharedFaces.getD i []).map (old (Par.facesOf m (cellsBy g2d rank)))).Perm (Par.facesBetween m (cellsBy g2d rank) (cellsBy g2d q)) ∧
    (m'.sharedFaces.getD i []).Pairwise fun a b => fk (faceCoords D m' a) ≤ fk (faceCoords D m' b)
end Verif.Exch
