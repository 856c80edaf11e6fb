import Verif.Spec.Mesh
import Mathlib.Order.Defs.LinearOrder
/-
Vocabulary for edge cleaning on 2D meshes: edges, short edges, corner nodes, closed cells, and what a mesh looks like after pairs of nodes have
been merged. Nothing here refers to how the library computes anything.
-/
namespace Verif.Editor
open Verif Verif.Mesh
variable {R K : Type}

/-- A 2D mesh whose faces are proper edges: every face joins two different nodes. -/
def Planar (m : Tess R) : Prop := ∀ F ∈ m.faces, ∃ a b, F = [a, b] ∧ a ≠ b

/-- Face `f` joins the nodes `a` and `b`, in some order. -/
def JoinsNodes (m : Tess R) (f a b : Nat) : Prop := face m f = [a, b] ∨ face m f = [b, a]

/-- Face `f` is on the boundary: it has one cell. -/
def OnBoundary (m : Tess R) (f : Nat) : Prop := f < m.faces.length ∧ (cellsOf m f).length = 1

/-- The boundary faces at node `n`. -/
def boundaryFacesAt (m : Tess R) (n : Nat) : List Nat :=
  (List.range m.faces.length).filter fun f => decide ((cellsOf m f).length = 1) && decide (n ∈ face m f)

/-- The boundary is a union of closed curves: a node on a boundary face is on exactly two. -/
def ClosedBoundary (m : Tess R) : Prop := ∀ f, OnBoundary m f → ∀ n ∈ face m f, (boundaryFacesAt m n).length = 2

/-- Node `n` is on the boundary. -/
def OnRim (m : Tess R) (n : Nat) : Prop := ∃ f, OnBoundary m f ∧ n ∈ face m f

/-- `n` is a corner of the boundary: it is on two different boundary faces, leading to `a` and `b`, and is not collinear with `a` and `b` according to the test. -/
def Corner (m : Tess R) (collin : List R → List R → List R → Bool) (n : Nat) : Prop :=
  ∃ f g a b, f ≠ g ∧ OnBoundary m f ∧ OnBoundary m g ∧ JoinsNodes m f n a ∧ JoinsNodes m g n b ∧
    collin (node 2 m n) (node 2 m a) (node 2 m b) = false

/-- The length of face `f`. -/
def lengthIs (m : Tess R) (dist : List R → List R → K) (f : Nat) (l : K) : Prop :=
  ∃ a b, face m f = [a, b] ∧ l = dist (node 2 m a) (node 2 m b)

/-- Face `f` is short: it is shorter than `tol` times some face of a cell it belongs to. -/
def Short [LinearOrder K] [Mul K] (m : Tess R) (dist : List R → List R → K) (tol : K) (f : Nat) : Prop :=
  ∃ c, c < m.cells.length ∧ ∃ s ∈ cell m c, posID s = f ∧ ∃ s' ∈ cell m c, ∃ l l', lengthIs m dist f l ∧ lengthIs m dist (posID s') l' ∧ l < tol * l'

/-- The first node of a signed face, in the direction the cell uses it. -/
def tail (m : Tess R) (s : Int) : Nat := (face m (posID s)).getD (if 0 ≤ s then 0 else 1) 0
/-- The last node of a signed face, in the direction the cell uses it. -/
def head (m : Tess R) (s : Int) : Nat := (face m (posID s)).getD (if 0 ≤ s then 1 else 0) 0

/-- The signed faces form a path from `a` to `b`. -/
def Path (m : Tess R) : Nat → List Int → Nat → Prop
  | a, [], b => a = b
  | a, s :: C, b => tail m s = a ∧ Path m (head m s) C b

/-- The signed faces form a closed loop: a path from some node back to it. -/
def ClosedLoop (m : Tess R) (C : List Int) : Prop := ∃ a, Path m a C a

/-- `m'` is `m` with nodes merged: node `n` is moved onto node `tgt n`, the nodes `kn` remain (in order, with their coordinates), exactly the faces `kf`
whose ends remain different stay (in order), and every cell keeps its remaining faces in order and orientation. -/
structure Merged (D : Nat) (m : Tess R) (kn kf : List Nat) (tgt : Nat → Nat) (m' : Tess R) : Prop where
  kn_sorted : kn.Pairwise (· < ·)
  kf_sorted : kf.Pairwise (· < ·)
  kn_lt : ∀ n ∈ kn, n < numNodes D m
  tgt_mem : ∀ n, n < numNodes D m → tgt n ∈ kn
  tgt_self : ∀ n ∈ kn, tgt n = n
  kf_iff : ∀ f, f ∈ kf ↔ f < m.faces.length ∧ ∀ a b, face m f = [a, b] → tgt a ≠ tgt b
  nodes : m'.nodes = kn.flatMap (node D m)
  faces : m'.faces.map (·.map (old kn)) = kf.map fun f => (face m f).map tgt
  faces_lt : ∀ F ∈ m'.faces, ∀ n ∈ F, n < kn.length
  cells : m'.cells.map (·.map (oldS kf)) = m.cells.map (·.filter fun s => decide (posID s ∈ kf))
  cells_lt : ∀ C ∈ m'.cells, ∀ s ∈ C, posID s < kf.length
  faceCells : m'.faceCells = kf.map (cellsOf m)
  sharedNodes : m'.sharedNodes.map (·.map (old kn)) = m.sharedNodes.map (·.filter fun n => decide (n ∈ kn))
  sharedNodes_lt : ∀ l ∈ m'.sharedNodes, ∀ n ∈ l, n < kn.length
  sharedFaces : m'.sharedFaces.map (·.map (old kf)) = m.sharedFaces.map (·.filter fun n => decide (n ∈ kf))
  sharedFaces_lt : ∀ l ∈ m'.sharedFaces, ∀ n ∈ l, n < kf.length

/-- How nodes are merged: `tgt n` is where node `n` goes. A node that moves goes to a node that stays, along a short edge, and neither is a corner; no node
receives two others; and no short edge away from the corners is left alone: one of its ends takes part in a merge. Of a
boundary node and an inner one the boundary node stays; otherwise the one with the smaller number does. -/
structure Matching [LinearOrder K] [Mul K] (m : Tess R) (dist : List R → List R → K) (collin : List R → List R → List R → Bool) (tol : K) (tgt : Nat → Nat) :
    Prop where
  idem : ∀ n, n < numNodes 2 m → tgt (tgt n) = tgt n
  lt : ∀ n, n < numNodes 2 m → tgt n < numNodes 2 m
  edge : ∀ n, n < numNodes 2 m → tgt n ≠ n → ∃ f, f < m.faces.length ∧ JoinsNodes m f n (tgt n) ∧ Short m dist tol f ∧ ¬ Corner m collin n ∧ ¬ Corner m collin (tgt n)
  once : ∀ n n', n < numNodes 2 m → n' < numNodes 2 m → tgt n ≠ n → tgt n' ≠ n' → tgt n = tgt n' → n = n'
  maximal : ∀ f a b, f < m.faces.length → JoinsNodes m f a b → Short m dist tol f → ¬ Corner m collin a → ¬ Corner m collin b →
    ∃ n, n < numNodes 2 m ∧ tgt n ≠ n ∧ (n = a ∨ n = b ∨ tgt n = a ∨ tgt n = b)
  rim : ∀ n, n < numNodes 2 m → tgt n ≠ n → OnRim m n → OnRim m (tgt n)
  smaller : ∀ n, n < numNodes 2 m → tgt n ≠ n → (OnRim m n ↔ OnRim m (tgt n)) → tgt n < n

/-- No two sides of a cell join the same two nodes. -/
def DistinctSides (m : Tess R) (C : List Int) : Prop := C.Pairwise fun s t => ¬ ∃ a b, JoinsNodes m (posID s) a b ∧ JoinsNodes m (posID t) a b

end Verif.Editor
