import Verif.Spec.Mesh
/-
Words for what the processes of a distributed tessellation own and share. Nothing here refers to how the library computes anything.
-/
namespace Verif.Par
open Verif Verif.Mesh
variable {R : Type}

/-- The number of generators on the processes before `r`; `procs` are the flat coordinates passed on each process, `D` the dimension. -/
def firstCell {α : Type} (D : Nat) (procs : List (List α)) (r : Nat) : Nat := ((procs.take r).map (·.length / D)).sum

/-- The cells of process `r` in the serial tessellation of all generators: one cell per generator, in the order of the processes. -/
def cellsOfProc {α : Type} (D : Nat) (procs : List (List α)) (r : Nat) : List Nat := List.range' (firstCell D procs r) ((procs.getD r []).length / D)

instance (m : Tess R) (kc : List Nat) (n : Nat) : Decidable (NodeUsed m kc n) := by unfold NodeUsed; infer_instance
instance (m : Tess R) (kc : List Nat) (n : Nat) : Decidable (FaceUsed m kc n) := by unfold FaceUsed; infer_instance

/-- The nodes of the cells `kc`, in increasing order. -/
def nodesOf (D : Nat) (m : Tess R) (kc : List Nat) : List Nat := (List.range (numNodes D m)).filter fun n => NodeUsed m kc n

/-- The faces of the cells `kc`, in increasing order. -/
def facesOf (m : Tess R) (kc : List Nat) : List Nat := (List.range m.faces.length).filter fun f => FaceUsed m kc f

/-- The nodes common to two sets of cells. -/
def nodesBetween (D : Nat) (m : Tess R) (kp kq : List Nat) : List Nat :=
  (List.range (numNodes D m)).filter fun n => NodeUsed m kp n ∧ NodeUsed m kq n

/-- The faces common to two sets of cells. -/
def facesBetween (m : Tess R) (kp kq : List Nat) : List Nat :=
  (List.range m.faces.length).filter fun f => FaceUsed m kp f ∧ FaceUsed m kq f

/-- A serial tessellation as the distributed tessellators expect it: consistent, every face has a node, and no communication data yet. -/
structure Serial (D : Nat) (m : Tess R) : Prop where
  consistent : Consistent D m
  faces_ne : ∀ F ∈ m.faces, F ≠ []
  nd : m.neighborDomains = []
  sn : m.sharedNodes = []
  sf : m.sharedFaces = []
end Verif.Par
